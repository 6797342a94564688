#!/usr/bin/env python3
"""Systematic mutation of the model: every operator, comparison, constant, index, field and sign of every definition.

usage: automut.py list                     print the mutants
       automut.py run SCRATCH [id ...]     (SCRATCH as made by mutate.py prepare; results in SCRATCH/auto.jsonl)

Unlike mutate.py this stops at the first module with a failing declaration: the question is only whether the mutant
survives.  A mutant whose module no longer elaborates outside proofs is dropped ("broken").
"""
import sys, os, re, json, subprocess, time, shutil, random, hashlib
here = os.path.dirname(os.path.abspath(__file__))
FILES = ['Model/Scalar.lean', 'Model/Interval.lean', 'Model/Vector.lean', 'Model/Transform.lean', 'Model/Bbox.lean', 'Model/Sphere.lean',
         'Model/Primitive.lean', 'Model/Camera.lean', 'Model/Imperative.lean']
SW = [(r' \+ ', [' - ']), (r' - ', [' + ']), (r' \* ', [' / ', ' + ']), (r' / ', [' * ']),
      (r'\.lt\b', ['.le', '.gt']), (r'\.le\b', ['.lt', '.ge']), (r'\.gt\b', ['.ge', '.lt']), (r'\.ge\b', ['.gt', '.le']), (r'\.eq\b', ['.ne']), (r'\.ne\b', ['.eq']),
      (r'\b(?<!\.)min\b|\.min\b', ['max']), (r'\bmax\b|\.max\b', ['min']),
      (r'\.inf\b', ['.sup']), (r'\.sup\b', ['.inf']), (r'\.nextUp\b', ['.nextDown']), (r'\.nextDown\b', ['.nextUp']),
      (r'\.x\b', ['.y']), (r'\.y\b', ['.z', '.x']), (r'\.z\b', ['.x']),
      (r'\.(xmin|ymin|zmin|pmin|zMin|thetaMin)\b', None), (r'\.(xmax|ymax|zmax|pmax|zMax|thetaMax)\b', None),
      (r' && ', [' || ']), (r' \|\| ', [' && ']), (r'(?<=[ (])!', ['']), (r'(?<=[ (\[⟨])-(?=[a-zA-Z(𝟙])', ['']),
      (r'\b0\b', ['1']), (r'\b1\b', ['0', '2']), (r'\b2\b', ['1', '3']), (r'\b3\b', ['2']), (r'\b4\b', ['3', '2']),
      (r'\.zero\b', ['.one']), (r'\.one\b', ['.zero']), (r'𝟘', ['𝟙']), (r'𝟙', ['𝟘']), (r'\bo\b', ['z']), (r'\bz\b(?!\.)', ['o']),
      (r'\.sin\b', ['.cos']), (r'\.cos\b', ['.sin']), (r'\bs\b(?!\.)', ['c']), (r'\bc\b(?!\.)', ['s']), (r'\.tan\b', ['.sin']), (r'\.acos\b', ['.asin']),
      (r'\.minv\b', ['.m']), (r'\.m\b', ['.minv']), (r'\btrue\b', ['false']), (r'\bfalse\b', ['true']), (r'\bnone\b', None),
      (r'\.half\b', ['.pi']), (r'\.infinity\b', ['.negInfinity']), (r'\.negInfinity\b', ['.infinity']), (r'\.highest\b', ['.lowest']), (r'\.lowest\b', ['.highest']),
      (r'\.isPositive\b', ['.isNonnegative', '.isNegative']), (r'\.isNegative\b', ['.isNonpositive', '.isPositive']),
      (r'\.isNonnegative\b', ['.isPositive', '.isNonpositive']), (r'\.isNonpositive\b', ['.isNegative', '.isNonnegative']),
      (r'\.lower\b', ['.upper']), (r'\.upper\b', ['.lower']), (r'\bt0\b', ['t1']), (r'\bt1\b', ['t0']),
      (r'\.tmax\b', ['.tmin']), (r'\.abs\b', ['.neg']), (r'\.square\b', ['.abs']), (r'\.floor\b', ['.ceil'])]
FIX = {'xmin': 'xmax', 'ymin': 'ymax', 'zmin': 'zmax', 'pmin': 'pmax', 'zMin': 'zMax', 'thetaMin': 'thetaMax'}
FIX.update({v: k for k, v in FIX.items()})
FIX2 = {'xmin': 'ymin', 'ymin': 'zmin', 'zmin': 'xmin', 'xmax': 'ymax', 'ymax': 'zmax', 'zmax': 'xmax'}

def gen():
    out = []
    for f in FILES:
        src = open(os.path.join('/verif/lean/Verif', f)).read()
        # blank comments, keep offsets
        code = re.sub(r'/-.*?-/|--[^\n]*', lambda m: re.sub(r'[^\n]', ' ', m.group(0)), src, flags=re.S)
        cur, body, off = '?', False, 0
        for line in code.split('\n'):
            d = re.match(r'(?:@\[[^\]]*\]\s*)?(?:noncomputable |private |protected )*(def|instance|theorem|lemma|structure|class|abbrev|inductive)\b\s*(\S*)', line)
            if d:
                cur = d.group(2) if d.group(1) != 'instance' else 'instance ' + line[9:60].strip(); kind = d.group(1); body = False
            elif re.match(r'(variable|section|namespace|end|open|import|local|set_option|theorem|lemma)\b', line): body = False; kind = ''
            start = 0
            if not body:
                k = re.search(r':=|\bwhere\b', line)
                if d and k: start = k.end(); body = True
                elif k and kind in ('def', 'instance', 'abbrev'): start = k.end(); body = True
                elif re.match(r'\s+\|', line) and kind in ('def', 'instance'): body = True
                else: off += len(line) + 1; continue
            if kind in ('def', 'instance', 'abbrev', 'class'):
                for pat, reps in SW:
                    for m in re.finditer(pat, line[start:]):
                        old = m.group(0)
                        if reps is None:
                            n = m.group(1) if m.groups() else None
                            rs = ['.' + FIX[n]] + (['.' + FIX2[n]] if n in FIX2 else []) if n else []
                        else: rs = [('.' + r if old.startswith('.') and not r.startswith('.') else r) for r in reps]
                        for r in rs: out.append((f, cur, off + start + m.start(), old, r, line.strip()))
            off += len(line) + 1
    res = []
    for f, cur, o, old, new, line in out:
        h = hashlib.md5(f'{f}{cur}{o}{old}{new}{line}'.encode()).hexdigest()[:8]
        res.append(dict(id='A' + h, file=f, **{'def': cur}, off=o, old=old, new=new, line=line))
    random.Random(7).shuffle(res)
    cap = int(os.environ.get('CAP', '30')); cnt = {}; sel = []
    for r in res:
        k = (r['file'], r['def']); cnt[k] = cnt.get(k, 0) + 1
        if cnt[k] <= cap: sel.append(r)
    return sel

if __name__ == '__main__' and sys.argv[1] == 'list':
    r = gen()
    for m in r: print(m['id'], m['file'], m['def'], '|', m['old'], '->', m['new'], '|', m['line'][:100])
    print(len(r)); sys.exit()

cmd, scratch = sys.argv[1:3]
base = os.path.join(scratch, 'base'); front = os.path.join(scratch, 'mutfront.lean'); index = os.path.join(scratch, 'index.txt')
SH, NS = map(int, os.environ.get('SHARD', '0/1').split('/'))
work = os.path.join(scratch, f'awork{SH}')
PROP = re.compile(r'^Scarlet\.(?:.*\.)?(C\d\d+)_[^.]*$')
e = dict(os.environ)
p = subprocess.run(['lake', 'env', 'printenv', 'LEAN_PATH'], cwd='/verif/lean', capture_output=True, text=True).stdout.strip()
e['LEAN_PATH'] = p.replace('/verif/lean/.lake', work + '/.lake'); ENV = e

def lean(*args, timeout=1500):
    p = subprocess.run(['lean', '--run', front, *args], cwd=work, env=ENV, capture_output=True, text=True, timeout=timeout)
    if p.returncode: raise RuntimeError(p.stdout[-400:] + p.stderr[-400:])
    return p.stdout
def parse(text):
    d = {}
    for l in text.split('\n'):
        q = l.split('\t')
        if len(q) == 4: d[q[1]] = (q[0], q[2], q[3].split())
    return d
IDX = parse(open(index).read()); USERS = {}
for n, (m, h, us) in IDX.items():
    for u in us: USERS.setdefault(u, []).append(n)
DECL = re.compile(r'^(?:@\[[^\]]*\]\s*)?(?:private |protected |noncomputable |local )*(theorem|lemma|def|instance|example|structure|class|abbrev|inductive)\b\s*([^\s:({\[]*)')
def where(lines, l):
    for i in range(l - 1, -1, -1):
        m = DECL.match(lines[i])
        if m: return m.group(1), m.group(2) or f'line {i + 1}'
    return '?', f'line {l}'
def path(m): return os.path.join(work, *m.split('.')) + '.lean'
def olean(m): return os.path.join(work, '.lake/build/lib/lean', *m.split('.')) + '.olean'
SIZE = {}
def imports(m): return re.findall(r'^import (Verif\S*)', open(path(m)).read(), re.M)
def elab(m):
    if os.path.exists(olean(m)): os.remove(olean(m))
    out = lean('build', os.path.relpath(path(m), work), m, olean(m))
    lines = open(path(m)).read().split('\n')
    return [(*where(lines, int(l)), msg) for l, msg in re.findall(r'^ERR (\d+) (.*)$', out, re.M)]

def run(mu):
    t0 = time.time()
    shutil.rmtree(work, ignore_errors=True); os.makedirs(work)
    subprocess.run(['cp', '-a', base + '/Verif', base + '/Verif.lean', work], check=True)
    os.makedirs(work + '/.lake/build/lib'); subprocess.run(['cp', '-al', base + '/.lake/build/lib/lean', work + '/.lake/build/lib/'], check=True)
    m0 = 'Verif.' + mu['file'][:-5].replace('/', '.')
    src = open(path(m0)).read(); k = mu['off']
    assert src[k:k + len(mu['old'])] == mu['old'], 'base differs'
    os.remove(path(m0)); open(path(m0), 'w').write(src[:k] + mu['new'] + src[k + len(mu['old']):])
    def done(status, failed=(), mods=1):
        r = dict(id=mu['id'], definition=mu['def'], file=mu['file'], old=mu['old'], new=mu['new'], line=mu['line'], off=mu['off'], status=status, failed=list(dict.fromkeys(failed)),
                 modules=mods, seconds=round(time.time() - t0))
        with open(os.path.join(scratch, 'auto.jsonl'), 'a') as g: g.write(json.dumps(r, ensure_ascii=False) + '\n')
        print(mu['id'], mu['def'], mu['old'], '->', mu['new'], '|', mu['line'][:80], '|', status, r['failed'][:5], r['seconds'], flush=True)
    er = elab(m0)
    if any(k not in ('theorem', 'lemma', 'example') for k, n, msg in er): return done('broken')
    if er: return done('killed', [f'{m0.split(".")[-1]}.{n}' for k, n, msg in er])
    new = parse(lean('dump', m0, m0)); old = {n: v for n, v in IDX.items() if v[0] == m0}
    seeds = [n for n in set(new) | set(old) if n not in new or n not in old or new[n][1] != old[n][1]]
    if not seeds: return done('same')
    aff = set(seeds); todo = list(seeds)
    while todo:
        for u in USERS.get(todo.pop(), []):
            if u not in aff: aff.add(u); todo.append(u)
    mods = {IDX[n][0] for n in aff if n in IDX} - {m0}
    closure = {}
    def deps(m):
        if m not in closure: closure[m] = set(); closure[m] = set(imports(m)).union(*[deps(i) for i in imports(m)])
        return closure[m]
    todo = set(mods); n = 1
    # modules with a theorem that mentions a changed constant directly first
    direct = {IDX[u][0] for s in seeds for u in USERS.get(s, []) if u in IDX}
    while todo:
        ready = [m for m in todo if not deps(m) & todo]
        m = min(ready, key=lambda m: (m not in direct, os.path.getsize(path(m))))
        er = elab(m); n += 1
        if er: return done('killed', [f'{m.split(".")[-1]}.{d}' for k, d, msg in er], n)
        todo.discard(m)
    done('SURVIVED', (), n)

rp = os.path.join(scratch, 'auto.jsonl')
sel = sys.argv[3:]
for k, mu in enumerate(gen()):
    if sel and mu['id'] not in sel: continue
    if not sel and k % NS != SH: continue
    seen = {json.loads(l)['id'] for l in open(rp)} if os.path.exists(rp) else set()
    if mu['id'] in seen and not sel: continue
    try: run(mu)
    except Exception as ex: print(mu['id'], 'EXC', repr(ex)[:600], flush=True)
