#!/usr/bin/env python3
"""Regenerate lean/Verif.lean (imports) and MANIFEST.json (claims) from the sources."""
import json, re, pathlib
root = pathlib.Path(__file__).resolve().parent.parent
mods = sorted(str(p.relative_to(root / 'lean'))[:-5].replace('/', '.')
              for p in (root / 'lean/Verif').rglob('*.lean'))
(root / 'lean/Verif.lean').write_text(''.join(f'import {m}\n' for m in mods))
thms = {}
for p in sorted((root / 'lean/Verif/Props').glob('*.lean')):
    for m in re.finditer(r'^theorem ((C\d\d+)_\w+[\w\']*)', p.read_text(), re.M):
        thms.setdefault(m.group(2), []).append('Bento.' + m.group(1))
notes = json.loads((root / 'tools/notes.json').read_text())
claims = []
for line in (root / 'properties.jsonl').read_text().splitlines():
    pid = json.loads(line)['id']
    n = notes.get(pid, {})
    ts = thms.get(pid, [])
    status = n.get('status') or ('partial' if (not ts or any(t.endswith('_partial') for t in ts)) else 'proved')
    claims.append({'property': pid, 'status': status, 'theorems': ts,
                   'note': n.get('note', '' if ts else 'not yet formalised')})
(root / 'MANIFEST.json').write_text(json.dumps({'claims': claims}, indent=1, ensure_ascii=False) + '\n')
print({s: sum(c['status'] == s for c in claims) for s in ('proved', 'partial')})
