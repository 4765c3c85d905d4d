#!/usr/bin/env python3
"""Applies small systematic edits to the definitions of the model in a scratch copy and records which of them
no theorem notices.

usage: automutate.py SEED PER_DEF OUT FILE...   (files relative to lean/Verif, e.g. Model/Tabs.lean)
The build is stopped at the first error. Caught edits and survivors go to OUT (JSON lines).
With STRIP=1 the examples and the negative theorems nothing else uses are removed first, so that only theorems that
state what holds can notice an edit; with KEEP=1 the scratch copy of the last call is used again,
with COPIED=1 a copy made by hand.
"""
import json, os, random, re, signal, subprocess, sys, time

V = '/verif/lean'
S = '/tmp/amut/lean'
P = '/tmp/amut/pristine'

SWAPS = [(' + ', ' - '), (' - ', ' + '), (' < ', ' ≤ '), (' ≤ ', ' < '), (' > ', ' ≥ '), (' ≥ ', ' > '),
         (' && ', ' || '), (' || ', ' && '), (' ∧ ', ' ∨ '), (' ∨ ', ' ∧ '), ('.take ', '.drop '), ('.drop ', '.take '),
         ('min ', 'max '), ('max ', 'min '), ('.x', '.y'), ('.y', '.x'), ('.width', '.height'), ('.height', '.width'),
         ('.left', '.right'), ('.right', '.left'), ('.top', '.bottom'), ('.bottom', '.top'), ('true', 'false'),
         ('false', 'true'), (' * ', ' + '), (' / ', ' * '), ('.head?', '.getLast?'), ('.getLast?', '.head?'),
         ('.reverse', ''), (' = ', ' ≠ '), (' == ', ' != '), (' != ', ' == '), (' ≠ ', ' = '), ('!', ''), ('¬ ', '')]

def strip_comments(src):
    out = list(src)
    i = 0
    while i < len(src):
        if src.startswith('/-', i):
            j = src.index('-/', i) + 2
            for k in range(i, j):
                if out[k] != '\n': out[k] = '\0'
            i = j
        elif src.startswith('--', i):
            j = src.find('\n', i)
            for k in range(i, j): out[k] = '\0'
            i = j
        else: i += 1
    return ''.join(out)

def candidates(src):
    code = strip_comments(src)
    lines = code.split('\n')
    offs = [0]
    for l in lines: offs.append(offs[-1] + len(l) + 1)
    defs = []
    for i, l in enumerate(lines):
        m = re.match(r'(?:@\[[^\]]*\] )?(?:private )?(def|abbrev|theorem|lemma|example|instance|structure|inductive|end|namespace|section|open|variable|deriving)\b\s*(\S*)', l)
        if m: defs.append((i, m.group(1), m.group(2)))
    defs.append((len(lines), 'end', ''))
    res = {}
    for (i, kind, name), (j, _, _) in zip(defs, defs[1:]):
        if kind not in ('def', 'instance'): continue
        a, b = offs[i], offs[min(j, len(lines))] - 1 if j < len(offs) else len(code)
        body = code[a:b]
        k = body.find(':=')
        k2 = body.find('\n  |')
        st = min(x for x in (k, k2, len(body)) if x >= 0) if (k >= 0 or k2 >= 0) else 0
        muts = []
        for o, n in SWAPS:
            for m in re.finditer(re.escape(o), body):
                if m.start() < st: continue
                if re.match(r'\.[a-z]+$', o) and re.match(r'[A-Za-z]', body[m.end():m.end() + 1] or ' '): continue
                if re.match(r'[a-z]', o) and re.match(r'[A-Za-z.]', body[m.start() - 1:m.start()] or ' '): continue
                if o == '!' and body[m.end():m.end() + 1] in '= ]': continue
                muts.append((a + m.start(), a + m.end(), n))
        for m in re.finditer(r'(?<![\w.?])(\d+)(?![\w.])', body):
            if m.start() < st: continue
            muts.append((a + m.start(), a + m.end(), str(int(m.group(1)) + 1)))
            if int(m.group(1)) > 0: muts.append((a + m.start(), a + m.end(), str(int(m.group(1)) - 1)))
        for m in re.finditer(r'\bif (?!h)(.+?) then', body):
            if m.start() < st: continue
            muts.append((a + m.start(1), a + m.end(1), f'¬ ({m.group(1)})'))
        if muts: res[name] = muts
    return res

def enclosing(path, line):
    ls = open(path).read().split('\n')
    for i in range(min(line, len(ls)) - 1, -1, -1):
        m = re.match(r'\s*(?:@\[[^\]]*\]\s*)*(?:private |protected )?(theorem|lemma|def|example|instance|structure|inductive)\s+(\S+)?', ls[i])
        if m: return 'example' if m.group(1) == 'example' else m.group(2)
    return '?'

def restore(stamp):
    r = subprocess.run(['find', S + '/.lake/build', '-type', 'f', '-newermt', '@%f' % stamp], capture_output=True, text=True)
    for f in r.stdout.split('\n'):
        if not f: continue
        p = P + f[len(S + '/.lake/build'):]
        if os.path.exists(p): subprocess.run(['cp', '-a', p, f])
        else: os.remove(f)

def build():
    p = subprocess.Popen(['lake', 'build', 'Verif'], cwd=S, stdout=subprocess.PIPE, stderr=subprocess.STDOUT, text=True,
                         start_new_session=True)
    first = None
    for l in p.stdout:
        m = re.search(r'error: (Verif/\S+?\.lean):(\d+):\d*:?\s*(.*)', l)
        if m and not first:
            first = (m.group(1), int(m.group(2)), m.group(3))
            os.killpg(p.pid, signal.SIGKILL)
            break
    p.wait()
    return first, p.returncode

def strip():
    import glob
    START=re.compile(r'(?:@\[|/--|/-!|theorem |lemma |def |abbrev |example|instance |structure |inductive |end |namespace |section|open |variable|private |noncomputable |set_option |attribute |macro|local |#)')
    files=sorted(glob.glob(S+'/Verif/**/*.lean',recursive=True))
    allsrc={f:open(f).read() for f in files}
    blob='\n'.join(allsrc.values())
    falses=set(re.findall(r'^theorem (\S*_false\S*)',blob,re.M))
    unused={n for n in falses if len(re.findall(r'(?<![\w.])'+re.escape(n)+r'(?![\w])',re.sub(r'/-.*?-/','',blob,flags=re.S)))==1}
    for f in files:
        if '/Tests' in f: continue
        ls=allsrc[f].split('\n')
        chunks=[];cur=[]
        incom=False
        for l in ls:
            if not incom and START.match(l): 
                chunks.append(cur);cur=[]
            cur.append(l)
            for m in re.finditer(r'/-|-/',l): incom = m.group()=='/-'
        chunks.append(cur)
        out=[];pend=[]
        for c in chunks:
            if not c: continue
            h=c[0]
            if h.startswith('/--') : pend.append(c); continue
            if h.startswith('@[') and len(c)==1: pend.append(c); continue
            if h.startswith(('set_option', 'open')) and h.rstrip().endswith(' in'): pend.append(c); continue
            m=re.match(r'theorem (\S+)',h)
            if h.startswith('example') or (m and m.group(1) in unused):
                pend=[]
                continue
            for q in pend: out+=q
            pend=[]
            out+=c
        for q in pend: out+=q
        open(f,'w').write('\n'.join(out))
    v=S+'/Verif.lean'
    s=open(v).read()
    open(v,'w').write('\n'.join(l for l in s.split('\n') if 'Tests' not in l))

def main():
    seed, per, out = int(sys.argv[1]), int(sys.argv[2]), sys.argv[3]
    rng = random.Random(seed)
    if not os.environ.get('KEEP'):
        if not os.environ.get('COPIED'):
            subprocess.run(f'mkdir -p {S} && rm -rf {S}/Verif && cp -a {V}/. {S}/', shell=True, check=True)
        if os.environ.get('STRIP'):
            strip()
            subprocess.run(['lake', 'build', 'Verif'], cwd=S, check=True)
        subprocess.run(f'rm -rf {P} && cp -a {S}/.lake/build {P}', shell=True, check=True)
    for file in sys.argv[4:]:
        f = f'{S}/Verif/{file}'
        src = open(f).read()
        for name, muts in candidates(src).items():
            done = 0
            rng.shuffle(muts)
            for a, b, n in muts:
                if done >= per: break
                stamp = time.time() - 1
                open(f, 'w').write(src[:a] + n + src[b:])
                first, code = build()
                ls = src[:a].count('\n')
                old = src.split('\n')[ls]
                st = src.rfind('\n', 0, a) + 1
                en = src.find('\n', b)
                rec = {'definition': name, 'file': file, 'edit': {'old': src[st:en], 'new': src[st:a] + n + src[b:en]}, 'line': ls + 1}
                if first and first[0].startswith('Verif/Model'):
                    rec['invalid'] = first[2][:80]
                else:
                    done += 1
                    rec['caught'] = first is not None or code != 0
                    if first:
                        t = enclosing(f'{S}/{first[0]}', first[1])
                        rec['failed'] = [f'{first[0][6:-5].replace("/", ".")}: {t}']
                open(f, 'w').write(src)
                restore(stamp)
                rec['seconds'] = round(time.time() - stamp)
                with open(out, 'a') as g: g.write(json.dumps(rec, ensure_ascii=False) + '\n')

main()
