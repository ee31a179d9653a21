#!/usr/bin/env python3
"""Collects the theorems named Cnn_... from lean/Verif/Props into MANIFEST.json.
Status: 'partial' if listed in tools/status.json as partial, else 'proved'."""
import json, re, glob, os
root = os.path.dirname(os.path.dirname(os.path.abspath(__file__)))
st = json.load(open(root + "/tools/status.json"))
thms = {}
for f in sorted(glob.glob(root + "/lean/Verif/Props/*.lean")):
    for m in re.finditer(r"^theorem (C\d\d+_\w+)", open(f).read(), re.M):
        thms.setdefault(m.group(1).split("_")[0], []).append("Verif.Props." + m.group(1))
claims = []
for line in open(root + "/properties.jsonl"):
    pid = json.loads(line)["id"]
    s = st.get(pid, {})
    if pid in thms:
        claims.append({"property": pid, "status": s.get("status", "proved"), "theorems": thms[pid], "note": s.get("note", "")})
    elif s.get("status") == "not_applicable":
        claims.append({"property": pid, "status": "not_applicable", "theorems": [], "note": s.get("note", "")})
    else:
        print("no theorems for", pid)
json.dump({"claims": claims}, open(root + "/MANIFEST.json", "w"), indent=1, ensure_ascii=False)
print(len(claims), "claims,", sum(len(c["theorems"]) for c in claims), "theorems")
