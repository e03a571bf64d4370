#!/usr/bin/env python3
"""Regenerates MANIFEST.json from tools/claims.txt.
Line format: Cxx | status | theorem theorem ... | note"""
import json, os, re
here = os.path.dirname(os.path.abspath(__file__))
claims = []
for line in open(os.path.join(here, "claims.txt")):
    line = line.strip()
    if not line or line.startswith("#"):
        continue
    pid, status, thms, note = [x.strip() for x in line.split("|", 3)]
    claims.append({"property": pid, "status": status,
                   "theorems": ["L2J." + t if not t.startswith("L2J.") else t for t in thms.split()],
                   "note": note})
ids = [json.loads(l)["id"] for l in open(os.path.join(here, "..", "properties.jsonl")) if l.strip()]
missing = [i for i in ids if i not in {c["property"] for c in claims}]
print("properties without claim:", missing)
src = ""
for root, _, files in os.walk(os.path.join(here, "..", "lean", "Verif")):
    for f in files:
        src += open(os.path.join(root, f)).read()
for c in claims:
    for t in c["theorems"]:
        n = t.rsplit(".", 1)[1]
        if not re.search(r"theorem\s+" + re.escape(n) + r"[\s{(:\[]", src):
            print("UNKNOWN theorem", t)
json.dump({"claims": claims}, open(os.path.join(here, "..", "MANIFEST.json"), "w"), indent=1)
