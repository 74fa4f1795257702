#!/usr/bin/env python3
"""Append results of mutate.py to seeded/LOG.jsonl.

usage: log_mutations.py OUT.jsonl [TIGHTENED.json]

TIGHTENED.json maps the text of an edit to the theorems tightened or added because it survived (or to a remark).
"""
import json, sys
tight = json.load(open(sys.argv[2])) if len(sys.argv) > 2 else {}
with open("/verif/seeded/LOG.jsonl", "a") as f:
    for l in open(sys.argv[1]):
        d = json.loads(l)
        if d["status"] != "ok":
            continue
        t = tight.get(d["edit"], []) if d["survived"] else []
        rec = {"definition": d["file"] + ": " + d["def"].split()[-1], "edit": d["edit"] + ": `" + d["old"] + "` -> `" + d["new"] + "`",
               "claim": d["claim"] + " (" + ", ".join(d["expect"]) + ")", "theorems_failed": sorted(set(d["failed"]) | set(d.get("broken", []))),
               "theorems_tightened": t if isinstance(t, list) else []}
        if d["survived"]:
            rec["survived"] = d["survived"]
        if not isinstance(t, list):
            rec["remark"] = t
        f.write(json.dumps(rec, ensure_ascii=False) + "\n")
