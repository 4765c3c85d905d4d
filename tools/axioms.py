#!/usr/bin/env python3
"""Writes AXIOMS.md: the axioms that every theorem of MANIFEST.json depends on."""
import json, re, subprocess
V = '/verif'
names = []
for c in json.load(open(f'{V}/MANIFEST.json'))['claims']:
    for t in c['theorems']:
        if t not in names: names.append(t)
open('/tmp/axioms.lean', 'w').write('import Verif\n' + ''.join(f'#print axioms {n}\n' for n in names))
out = subprocess.run(['lake', 'env', 'lean', '/tmp/axioms.lean'], cwd=f'{V}/lean', capture_output=True, text=True).stdout
got = {}
for m in re.finditer(r"'([^']+)' (does not depend on any axioms|depends on axioms: \[([^\]]*)\])", out):
    got[m.group(1)] = ', '.join(x.strip() for x in (m.group(3) or '').split(',')) or 'none'
groups = {}
for n in names: groups.setdefault(got.get(n, 'MISSING'), []).append(n)
with open(f'{V}/AXIOMS.md', 'w') as f:
    f.write('# Axioms of the property theorems\n\nGenerated by `tools/axioms.py` from `#print axioms`.\n')
    for a in sorted(groups):
        f.write(f'\n## {a} ({len(groups[a])} theorems)\n\n' + ''.join(f'* `{n}`\n' for n in groups[a]))
print({a: len(groups[a]) for a in groups})
