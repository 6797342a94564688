#!/usr/bin/env python3
"""Which lines of /repo/src are cited by the model (lean/Verif/Model, lean/Verif/Float)?  Prints the code lines that
are not cited, outside `use`, attributes, comments, `#[cfg(test)]` modules and closing braces."""
import re, os, glob
here = os.path.dirname(os.path.abspath(__file__))
cited = {}
for f in glob.glob(os.path.join(here, '../lean/Verif/*/*.lean')):
    cur = None
    for com in re.findall(r'/--?!?.*?-/|/-.*?-/|--[^\n]*', open(f).read(), re.S):
        cur = None
        for tok in re.finditer(r'([a-z0-9_]+\.rs)|(\d+)-(\d+)|(?<![\w.-])(\d+)(?![\w-])', com):
            if tok.group(1): cur = tok.group(1)
            elif cur and tok.group(2): cited.setdefault(cur, set()).update(range(int(tok.group(2)), int(tok.group(3)) + 1))
            elif cur and tok.group(4): cited.setdefault(cur, set()).add(int(tok.group(4)))
tot = miss = 0
for p in sorted(glob.glob('/repo/src/*/*.rs')):
    name = os.path.basename(p); lines = open(p).read().split('\n'); intest = False
    un = []
    for i, l in enumerate(lines, 1):
        if '#[cfg(test)]' in l: break
        s = l.strip()
        if not s or s.startswith(('//', '#[', 'use ', 'pub mod', 'mod ')) or re.fullmatch(r'[\s{}();,]*', s): continue
        tot += 1
        if i not in cited.get(name, set()): un.append((i, l)); miss += 1
    print('==', name, len(un))
    for i, l in un: print(f'{i:5d} {l}')
print('code lines', tot, 'not cited', miss)
