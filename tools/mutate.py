#!/usr/bin/env python3
"""Mutation testing of the theorems, in a scratch copy outside /verif.

usage: mutate.py prepare SCRATCH       copy /verif/lean (sources and build) to SCRATCH/base, index its constants
       mutate.py run SCRATCH [id ...]  (FOCUS=1: only the modules that the named claims rest on; mutants: tools/mutants.py; results are appended to SCRATCH/results.jsonl)

For each mutant the one edit is applied to the model in SCRATCH/work.  The module is elaborated again, then every module
with a constant that depends on a changed constant.  A failing proof becomes a hole in the scratch copy only
(tools/mutfront.lean.txt writes the .olean in any case), so modules further up are checked too.  Reported: the
declarations with errors, and the property theorems that rest on a hole or no longer exist.
"""
import sys, os, re, json, subprocess, time, shutil, importlib.util
from concurrent.futures import ThreadPoolExecutor, wait, FIRST_COMPLETED

cmd, scratch = sys.argv[1:3]
here = os.path.dirname(os.path.abspath(__file__))
base = os.path.join(scratch, 'base'); front = os.path.join(scratch, 'mutfront.lean'); index = os.path.join(scratch, 'index.txt')
SH, NS = map(int, os.environ.get('SHARD', '0/1').split('/'))
JOBS = int(os.environ.get('JOBS', '2'))
work = os.path.join(scratch, f'work{SH}')
PROP = re.compile(r'^Scarlet\.(?:.*\.)?(C\d\d+)_[^.]*$')

def env(dirn):
    e = dict(os.environ)
    p = subprocess.run(['lake', 'env', 'printenv', 'LEAN_PATH'], cwd='/verif/lean', capture_output=True, text=True).stdout.strip()
    e['LEAN_PATH'] = p.replace('/verif/lean/.lake', dirn + '/.lake'); return e

def lean(dirn, *args):
    p = subprocess.run(['lean', '--run', front, *args], cwd=dirn, env=ENV, capture_output=True, text=True, timeout=3600)
    if p.returncode: raise RuntimeError(p.stdout[-400:] + p.stderr[-400:])
    return p.stdout

def parse(text):
    d = {}
    for l in text.split('\n'):
        q = l.split('\t')
        if len(q) == 4: d[q[1]] = (q[0], q[2], q[3].split())
    return d

if cmd == 'prepare':
    os.makedirs(scratch, exist_ok=True); shutil.rmtree(base, ignore_errors=True)
    subprocess.run(['cp', '-a', '/verif/lean', base], check=True)
    shutil.copy(os.path.join(here, 'mutfront.lean.txt'), front)
    ENV = env(base); open(index, 'w').write(lean(base, 'dump', 'Verif')); sys.exit()

spec = importlib.util.spec_from_file_location('mutants', os.environ.get('MUTANTS', os.path.join(here, 'mutants.py')))
mod = importlib.util.module_from_spec(spec); spec.loader.exec_module(mod)
ENV = env(work)
IDX = parse(open(index).read())
USERS = {}
for n, (m, h, us) in IDX.items():
    for u in us: USERS.setdefault(u, []).append(n)

DECL = re.compile(r'^(?:@\[[^\]]*\]\s*)?(?:private |protected |noncomputable |local )*(theorem|lemma|def|instance|example|structure|class|abbrev|inductive)\b\s*([^\s:({\[]*)')
def where(lines, l):
    """the declaration that line l (1-based) belongs to"""
    for i in range(l - 1, -1, -1):
        m = DECL.match(lines[i])
        if m: return m.group(1), m.group(2) or f'line {i + 1}'
    return '?', f'line {l}'

def path(m): return os.path.join(work, *m.split('.')) + '.lean'
def olean(m): return os.path.join(work, '.lake/build/lib/lean', *m.split('.')) + '.olean'
def imports(m): return re.findall(r'^import (Verif\S*)', open(path(m)).read(), re.M)

def elab(m):
    if os.path.exists(olean(m)): os.remove(olean(m))
    out = lean(work, 'build', os.path.relpath(path(m), work), m, olean(m))
    lines = open(path(m)).read().split('\n'); res = []
    for l, msg in re.findall(r'^ERR (\d+) (.*)$', out, re.M):
        k, n = where(lines, int(l)); res.append((k, n, msg))
    return res

def run(mu):
    t0 = time.time()
    shutil.rmtree(work, ignore_errors=True); os.makedirs(work)
    subprocess.run(['cp', '-a', base + '/Verif', base + '/Verif.lean', work], check=True)
    os.makedirs(work + '/.lake/build/lib'); subprocess.run(['cp', '-al', base + '/.lake/build/lib/lean', work + '/.lake/build/lib/'], check=True)
    m0 = 'Verif.' + mu['file'][:-5].replace('/', '.')
    src = open(path(m0)).read(); at = src.index(mu['ctx']) if mu.get('ctx') else 0
    k = src.index(mu['old'], at)
    os.remove(path(m0)); open(path(m0), 'w').write(src[:k] + mu['new'] + src[k + len(mu['old']):])
    errs = {m0: elab(m0)}
    model_errs = [f'{k} {n}: {msg}' for k, n, msg in errs[m0] if k not in ('theorem', 'lemma', 'example')]
    new = parse(lean(work, 'dump', m0, m0)); old = {n: v for n, v in IDX.items() if v[0] == m0}
    seeds = [n for n in set(new) | set(old) if n not in new or n not in old or new[n][1] != old[n][1]]
    aff = set(seeds); todo = list(seeds)
    while todo:
        for u in USERS.get(todo.pop(), []):
            if u not in aff: aff.add(u); todo.append(u)
    mods = {IDX[n][0] for n in aff if n in IDX} - {m0}
    # examples are not constants: also the modules whose text names a changed definition
    names = {n.split('.')[-1] for n in seeds if n in old and not n.split('.')[-1].startswith(('_', 'match', 'inst', 'proof'))}
    closure = {}
    def deps(m):
        if m not in closure: closure[m] = set(); closure[m] = set(imports(m)).union(*[deps(i) for i in imports(m)])
        return closure[m]
    if os.environ.get('FOCUS'):  # only what the modules of the named claims rest on
        goal = {v[0] for n, v in IDX.items() if PROP.match(n) and PROP.match(n).group(1) in mu['claims']}
        mods &= goal.union(*[deps(g) for g in goal])
    done = {m0}; running = {}; todo = set(mods)
    with ThreadPoolExecutor(JOBS) as ex:
        while todo or running:
            for m in sorted(todo):
                if not (deps(m) & (todo | set(running.values())) - {m}):
                    running[ex.submit(elab, m)] = m
            todo -= set(running.values())
            fin, _ = wait(running, return_when=FIRST_COMPLETED)
            for f in fin: errs[running.pop(f)] = f.result()
    failed, examples = [], 0
    for m, es in errs.items():
        for k, n, msg in es:
            if k == 'example': examples += 1
            elif f'{m.split(".")[-1]}.{n}' not in failed: failed.append(f'{m.split(".")[-1]}.{n}')
    cur = {n: v for n, v in IDX.items() if v[0] not in errs}
    cur.update(parse(lean(work, 'dump', 'Verif', *errs)))
    users = {}
    for n, (_, _, us) in cur.items():
        for u in us: users.setdefault(u, []).append(n)
    bad = set(users.get('sorryAx', [])) | {n for n in IDX if n not in cur and PROP.match(n)}; todo = list(bad)
    while todo:
        for u in users.get(todo.pop(), []):
            if u not in bad: bad.add(u); todo.append(u)
    taint = sorted(n.split('.', 1)[1] for n in bad if PROP.match(n))
    r = dict(id=mu['id'], definition=mu['def'], file=mu['file'], old=mu['old'], new=mu['new'], edit=mu['edit'], claims=mu['claims'], failed=failed,
             resting_on_failed=taint, examples_failed=examples, broken=model_errs, modules=len(errs), focused=bool(os.environ.get('FOCUS')), seconds=round(time.time() - t0))
    with open(os.path.join(scratch, 'results.jsonl'), 'a') as g: g.write(json.dumps(r, ensure_ascii=False) + '\n')
    hit = {c: len([t for t in taint if PROP.match('Scarlet.' + t).group(1) == c]) for c in mu['claims']}
    print(mu['id'], mu['def'], '|', mu['edit'], '|', 'SURVIVED' if not taint else '', hit, 'MISSED' if any(not v for v in hit.values()) else '',
          len(errs), 'modules', 'fail:', failed[:6], 'broken:', model_errs, r['seconds'], flush=True)

rp = os.path.join(scratch, 'results.jsonl')
done = {json.loads(l)['id'] for l in open(rp)} if os.path.exists(rp) else set()
sel = sys.argv[3:]
for k, mu in enumerate(mod.mutants):
    if (sel and mu['id'] not in sel) or (not sel and (k % NS != SH or mu['id'] in done)): continue
    try: run(mu)
    except Exception as ex: print(mu['id'], 'EXC', repr(ex)[:600], flush=True)
