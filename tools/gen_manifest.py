#!/usr/bin/env python3
"""Generate MANIFEST.json: theorem names are collected from the Lean sources (theorems named Cnn_…), notes and statuses from notes.json."""
import json, re, glob, os
root = os.path.dirname(os.path.dirname(os.path.abspath(__file__)))
props = [json.loads(l)["id"] for l in open(f"{root}/properties.jsonl")]
notes = json.load(open(f"{root}/tools/notes.json"))
th = {}
for f in sorted(glob.glob(f"{root}/lean/Verif/**/*.lean", recursive=True)):
    ns = []
    for line in open(f):
        m = re.match(r"namespace (\S+)", line)
        if m: ns.append(m.group(1))
        m = re.match(r"end (\S+)", line)
        if m and ns and ns[-1] == m.group(1): ns.pop()
        m = re.match(r"theorem ((C\d\d)\w*)", line)
        if m: th.setdefault(m.group(2), []).append(".".join(ns + [m.group(1)]))
claims = []
for p in props:
    n = notes.get(p, {})
    names = th.get(p, []) + n.get("also", [])
    claims.append({"property": p, "status": n.get("status", "proved" if names else "partial"), "theorems": names, "note": n.get("note", "" if names else "Not yet modelled.")})
json.dump({"claims": claims}, open(f"{root}/MANIFEST.json", "w"), indent=1, ensure_ascii=False)
print(sum(1 for c in claims if c["theorems"]), "of", len(claims), "with theorems;", sum(len(c["theorems"]) for c in claims), "theorems")
