#!/usr/bin/env python3
"""Writes MANIFEST.json. CLAIMS: property -> (status, [theorems], note)."""
import json, os
CLAIMS = {}
exec(open(os.path.join(os.path.dirname(__file__), "claims.py")).read())
props = [json.loads(l)["id"] for l in open("/verif/properties.jsonl")]
out = []
for p in props:
    if p in CLAIMS:
        s, t, n = CLAIMS[p]
        out.append({"property": p, "status": s, "theorems": t, "note": n})
json.dump({"claims": out}, open("/verif/MANIFEST.json", "w"), indent=1)
print(len(out), "claims; missing:", [p for p in props if p not in CLAIMS])
