#!/usr/bin/env python3
"""Write seeded/LOG.jsonl from the results of tools/seed.py and seeded/mutants.json.

Lines of the log whose id has no result in this run are kept."""
import json, os

LOG = "/verif/seeded/LOG.jsonl"
old = {}
if os.path.exists(LOG):
    for line in open(LOG):
        if line.strip():
            d = json.loads(line)
            old[d["id"]] = d
for m in json.load(open("/verif/seeded/mutants.json")):
    p = f"/tmp/seed/results/{m['id']}.json"
    if not os.path.exists(p):
        continue
    r = json.load(open(p))
    if r["note"]:
        print("skipped", m["id"], r["note"][:200])
        continue
    props = {x.split("_")[0] for x in r["failed"]}
    missed = [e for e in m["expect"] if e not in props]
    d = {"id": m["id"], "definition": m["definition"], "edit": m["edit"], "claim": m["claim"],
         "theorems_failed": r["failed"],
         "lemmas_failed": [x for x in r["direct"] if x not in r["failed"]],
         "theorems_tightened": m.get("tightened", [])}
    if missed:
        d["not_caught"] = missed
        print("MISSED", m["id"], missed)
    if m.get("remark"):
        d["remark"] = m["remark"]
    old[m["id"]] = d
with open(LOG, "w") as f:
    for d in old.values():
        f.write(json.dumps(d, ensure_ascii=False) + "\n")
print(len(old), "lines")
