#!/usr/bin/env python3
"""Writes MANIFEST.json: theorem names are collected from lean/Verif/Props, notes from tools/notes.json."""
import glob, json, os, re
root = os.path.dirname(os.path.dirname(os.path.abspath(__file__)))
notes = json.load(open(os.path.join(root, "tools", "notes.json")))
props = [json.loads(l)["id"] for l in open(os.path.join(root, "properties.jsonl")) if l.strip()]
found = {p: [] for p in props}
for f in sorted(glob.glob(os.path.join(root, "lean/Verif/Props/*.lean"))):
    for m in re.finditer(r"^theorem ((C\d\d)_[A-Za-z0-9_']+)", open(f).read(), re.M):
        found[m.group(2)].append("INNC." + m.group(1))
claims = []
for p in props:
    n = notes.get(p, {})
    if not found[p]:
        print("no theorem for", p)
        continue
    status = n.get("status") or ("partial" if any(t.endswith("_partial") for t in found[p]) else "proved")
    claims.append({"property": p, "status": status, "theorems": found[p], "note": n.get("note", "")})
json.dump({"claims": claims}, open(os.path.join(root, "MANIFEST.json"), "w"), indent=1)
