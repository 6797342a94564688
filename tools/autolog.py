#!/usr/bin/env python3
"""Merge the results of tools/automut.py into seeded/LOG.jsonl, one line per attempt:
   autolog.py SCRATCH
The run stops at the first module with a failing declaration, so theorems_failed is that module's share.  claim_broken names
the properties whose theorems fail there or, if only lemmas fail there, the nearest properties resting on those lemmas.
Mutants that no longer elaborate outside proofs are left out."""
import json, os, re, sys
root = os.path.join(os.path.dirname(os.path.abspath(__file__)), "..")
log = os.path.join(root, "seeded", "LOG.jsonl")
tight = json.load(open(os.path.join(root, "tools", "tightened.json")))
equivalent = json.load(open(os.path.join(root, "tools", "equivalent.json")))
PROP = re.compile(r'^Scarlet\.(?:.*\.)?((C\d\d+)_[^.]*)$')
idx = {}; users = {}
for l in open(os.path.join(sys.argv[1], "index.txt")):
    q = l.rstrip("\n").split("\t")
    if len(q) == 4:
        idx.setdefault(q[0].split(".")[-1], []).append(q[1])
        for u in q[3].split(): users.setdefault(u, []).append(q[1])
def nearest(names):
    seen = set(names); cur = list(names)
    while cur:
        hit = {PROP.match(n).group(2) for n in cur if PROP.match(n)}
        if hit: return sorted(hit)
        nxt = []
        for n in cur:
            for u in users.get(n, []):
                if u not in seen: seen.add(u); nxt.append(u)
        cur = nxt
    return []
FALLBACK = [("instance : Scalar UInt", ["C98"]), ("instance : Scalar Int", ["C98"]), ("instance : FltImpl", ["C04"]), ("add", ["C11"]), ("sub", ["C11"]),
            ("instance : GFloat (Interval", ["C99"])]
out = {}
for l in open(log):
    if l.strip():
        d = json.loads(l); out[d["id"]] = d
for l in open(os.path.join(sys.argv[1], "auto.jsonl")):
    r = json.loads(l)
    if r["status"] not in ("killed", "SURVIVED"): continue
    full = []
    for f in r["failed"]:
        mod, name = f.split(".", 1)
        full += [n for n in idx.get(mod, []) if n == "Scarlet." + name or n.endswith("." + name)]
    d = {"id": r["id"], "definition": f'{r["definition"]} ({r["file"]})', "edit": f'{r["old"].strip()} -> {r["new"].strip()} in: {r["line"]}',
         "claim_broken": nearest(full) or next((c for k, c in FALLBACK if r["definition"].startswith(k)), []), "theorems_failed": r["failed"], "survived": r["status"] == "SURVIVED",
         "theorems_tightened": tight.get(r["id"], [])}
    if r["id"] in equivalent: d["equivalent"] = equivalent[r["id"]]
    out[r["id"]] = d
with open(log, "w") as f:
    for k in sorted(out): f.write(json.dumps(out[k], ensure_ascii=False) + "\n")
print(len(out), "attempts; surviving:", [k for k in out if out[k].get("survived") and not out[k].get("equivalent") and not out[k]["theorems_tightened"]])
print("no claim:", [k for k in out if not out[k].get("claim_broken")][:20])
