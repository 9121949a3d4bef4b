#!/usr/bin/env python3
"""Turns results of seed.py into lines of seeded/LOG.jsonl: seedlog.py results.jsonl [tightened.json]"""
import json, sys, os
root = os.path.dirname(os.path.dirname(os.path.abspath(__file__)))
tight = json.load(open(sys.argv[2])) if len(sys.argv) > 2 else {}
with open(os.path.join(root, "seeded", "LOG.jsonl"), "a") as out:
    for l in open(sys.argv[1]):
        d = json.loads(l)
        key = d["definition"] + ": " + d["edit"]
        t = tight.get(key, {})
        out.write(json.dumps({
            "definition": d["definition"], "edit": d["edit"], "claim": d["claim"],
            "failed": d["failed"], "tightened": t.get("tightened", []),
            **({"note": t["note"]} if "note" in t else {})}) + "\n")
