#!/usr/bin/env python3
"""Writes MANIFEST.json from tools/claims.txt: id | status | theorems (comma separated) | note"""
import json, os
here = os.path.dirname(os.path.abspath(__file__))
claims = []
for line in open(os.path.join(here, "claims.txt")):
    line = line.strip()
    if not line or line.startswith("#"): continue
    i, st, th, note = [x.strip() for x in line.split("|", 3)]
    claims.append({"property": i, "status": st,
                   "theorems": [t.strip() for t in th.split(",") if t.strip()], "note": note})
claims.sort(key=lambda c: c["property"])
json.dump({"claims": claims}, open(os.path.join(here, "..", "MANIFEST.json"), "w"), indent=1, ensure_ascii=False)
