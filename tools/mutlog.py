#!/usr/bin/env python3
"""Merge the results of tools/mutate.py into seeded/LOG.jsonl, one line per attempt:
   mutlog.py RESULTS.jsonl
TIGHTENED names the theorems that were added or strengthened because the mutant survived an earlier version of the
theorems; the other fields describe the run against the present ones."""
import json, os, sys
root = os.path.join(os.path.dirname(os.path.abspath(__file__)), "..")
log = os.path.join(root, "seeded", "LOG.jsonl")
TIGHTENED = {
 "K11": ["C97_slopes", "C97_upright"], "P01": ["C100_scene_partial"], "A38": ["C98"], "A39": ["C98"],
 **{k: ["C99"] for k in "I44 I45 I47 I50 I66 I67 I68 I69".split()},
 **{k: ["C88_model"] for k in "T43 T47 V05 V26".split()},
 "V21": ["C96_model"], "V22": ["C96_model"],
 **{k: ["C78"] for k in "V06 T48 T44 T45 V07 I21 I22 A37".split()},
 "A14": ["C06"], "A16": ["C06"],
 **{k: ["C79", "C80"] for k in "A13 A17 A32 A35 A36".split()},
}
if os.path.exists(os.path.join(root, "tools", "tightened.json")):
    TIGHTENED.update(json.load(open(os.path.join(root, "tools", "tightened.json"))))
sys.dont_write_bytecode = True
sys.path.insert(0, os.path.join(root, "tools"))
import mutants
CLAIMS = {m["id"]: m["claims"] for m in mutants.M}
out = {}
for l in open(log):
    if l.strip():
        d = json.loads(l); out[d["id"]] = d
for l in open(sys.argv[1]):
    r = json.loads(l)
    direct = r["failed"]
    out[r["id"]] = {"id": r["id"], "definition": f'{r["definition"]} ({r["file"]})', "edit": r["edit"],
        "old": r["old"], "new": r["new"], "claim_broken": CLAIMS.get(r["id"], r["claims"]),
        "theorems_failed": direct, "properties_failed": r["resting_on_failed"],
        "examples_failed": r["examples_failed"],
        "survived": not direct and not r["examples_failed"] and not r["broken"],
        "theorems_tightened": TIGHTENED.get(r["id"], [])}
    if r.get("focused"): out[r["id"]]["checked"] = "only the modules that the named claims rest on"
    if r["broken"]: out[r["id"]]["modules_not_compiling"] = r["broken"]
with open(log, "w") as f:
    for k in sorted(out): f.write(json.dumps(out[k], ensure_ascii=False) + "\n")
print(len(out), "attempts", [k for k in out if out[k]["survived"]])
miss = [k for k in out if not any(p.startswith(c) for c in out[k]["claim_broken"] for p in out[k].get("properties_failed", []))]
print("claimed property not among the failures:", miss)
