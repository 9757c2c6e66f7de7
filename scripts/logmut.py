#!/usr/bin/env python3
"""Append mutation results (from mutate.py) to seeded/LOG.jsonl.  usage: logmut.py results.jsonl [tightened...]"""
import json, sys
out = open('/verif/seeded/LOG.jsonl', 'a')
for line in open(sys.argv[1]):
    r = json.loads(line)
    out.write(json.dumps({
        "definition": r["definition"], "edit": r["edit"], "claim": r["claim"].replace(" (not yet proved)", ""),
        "result": "survived" if r["ok"] else "killed",
        "theorems_failed": r["failed"], "theorems_tightened": r.get("tightened", [])}) + "\n")
