#!/usr/bin/env python3
"""usage: setprop.py < file of JSON objects {"id":..., fields to replace}, one per line"""
import json, sys, os
root = os.path.dirname(os.path.dirname(os.path.abspath(__file__)))
p = root + "/properties.jsonl"
rows = [json.loads(l) for l in open(p)]
by = {r["id"]: r for r in rows}
for l in sys.stdin:
    if l.strip():
        o = json.loads(l)
        if o["id"] in by: by[o["id"]].update(o)
        else:
            rows.append(o); by[o["id"]] = o
with open(p, "w") as f:
    for r in rows: f.write(json.dumps(r, ensure_ascii=False) + "\n")
