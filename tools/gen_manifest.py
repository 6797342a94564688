#!/usr/bin/env python3
"""Write MANIFEST.json: theorem names are collected from lean/Verif/Props, statuses and notes from tools/status.json."""
import glob, json, os, re
root = os.path.join(os.path.dirname(os.path.abspath(__file__)), "..")
thms = {}
for f in sorted(glob.glob(os.path.join(root, "lean/Verif/Props/*.lean"))):
    ns = []
    for line in open(f):
        m = re.match(r"namespace\s+(\S+)", line)
        if m: ns.append(m.group(1))
        m = re.match(r"end\s+(\S+)", line)
        if m and ns and ns[-1] == m.group(1): ns.pop()
        m = re.match(r"theorem\s+((C\d\d+)\w*)", line)
        if m:
            full = ".".join(ns + [m.group(1)])
            if full not in thms.setdefault(m.group(2), []):
                thms[m.group(2)].append(full)
status = json.load(open(os.path.join(root, "tools/status.json")))
claims = []
for l in open(os.path.join(root, "properties.jsonl")):
    pid = json.loads(l)["id"]
    if pid in status:
        st, note = status[pid]
        assert pid in thms, pid
        claims.append({"property": pid, "status": st, "theorems": thms[pid], "note": note})
    else:
        assert pid not in thms, f"{pid} has theorems but no status"
json.dump({"claims": claims}, open(os.path.join(root, "MANIFEST.json"), "w"), indent=1, ensure_ascii=False)
print(len(claims), "claims", sum(len(c["theorems"]) for c in claims), "theorems")
