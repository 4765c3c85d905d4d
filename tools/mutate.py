#!/usr/bin/env python3
"""Applies wrong edits to the model in a scratch copy and records which theorems stop proving.

usage: mutate.py edits.json   (edits: list of {file, old, new, claim, breaks, targets})
The scratch copy is /tmp/mut/lean; results go to seeded/LOG.jsonl.
"""
import json, os, re, subprocess, sys, shutil

V = '/verif/lean'
S = '/tmp/mut/lean'
LOG = '/verif/seeded/LOG.jsonl'

def sync():
    os.makedirs('/tmp/mut', exist_ok=True)
    subprocess.run(['rsync', '-a', '--delete', V + '/', S + '/'], check=True) if shutil.which('rsync') else \
        subprocess.run(f'mkdir -p {S} && cp -a -u {V}/. {S}/ && cp -a {V}/Verif/. {S}/Verif/', shell=True, check=True)

def enclosing(path, line):
    ls = open(path).read().split('\n')
    for i in range(min(line, len(ls)) - 1, -1, -1):
        m = re.match(r'\s*(?:@\[[^\]]*\]\s*)*(?:private |protected )?(theorem|lemma|def|example|instance|structure|inductive)\s+(\S+)?', ls[i])
        if m:
            return m.group(1) + ' ' + (m.group(2) or '') if m.group(1) == 'example' else m.group(2)
    return '?'

def main():
    edits = json.load(open(sys.argv[1]))
    sync()
    for e in edits:
        f = f'{S}/Verif/{e["file"]}'
        src = open(f).read()
        if src.count(e['old']) != 1:
            print('SKIP (pattern count %d): %s' % (src.count(e['old']), e['claim'])); continue
        open(f, 'w').write(src.replace(e['old'], e['new']))
        line = src[:src.index(e['old'])].count('\n') + 1
        d = enclosing(f, line + 1)
        r = subprocess.run(['lake', 'build'] + e['targets'], cwd=S, capture_output=True, text=True)
        out = r.stdout + r.stderr
        failed = []
        for m in re.finditer(r'error: (Verif/\S+?\.lean):(\d+):', out):
            n = enclosing(f'{S}/{m.group(1)}', int(m.group(2)))
            t = f'{m.group(1)[6:-5].replace("/", ".")}: {n}'
            if t not in failed: failed.append(t)
        prop_failed = [t for t in failed if t.startswith('Props.')]
        blocked = []
        for t in e['targets']:
            mod = t.replace('Verif.', '')
            if r.returncode != 0 and not any(x.startswith(mod + ':') for x in prop_failed):
                blocked.append(mod)
        open(f, 'w').write(src)
        rec = {'definition': d, 'file': e['file'], 'edit': {'old': e['old'], 'new': e['new']},
               'claim_broken': e['claim'], 'breaks': e.get('breaks', []),
               'caught': r.returncode != 0, 'failed': failed,
               'not_reached': blocked, 'tightened': e.get('tightened', [])}
        if e.get('note'): rec['note'] = e['note']
        with open(LOG, 'a') as g: g.write(json.dumps(rec, ensure_ascii=False) + '\n')
        print(('CAUGHT ' if r.returncode else 'SURVIVED ') + e['claim'], failed[:6], flush=True)

main()
