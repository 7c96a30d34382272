#!/usr/bin/env python3
"""Collect the property theorems (names Cnn_...) of lean/Verif/Props and write MANIFEST.json.

Status: "partial" if some theorem of the property has the suffix _partial, "proved" otherwise;
tools/notes.json may override the status and adds a note."""
import json, re, glob, os
root = os.path.dirname(os.path.dirname(os.path.abspath(__file__)))
props = [json.loads(l) for l in open(root + "/properties.jsonl") if l.strip()]
notes = json.load(open(root + "/tools/notes.json"))
thms = {}
for f in sorted(glob.glob(root + "/lean/Verif/Props/**/*.lean", recursive=True)):
    ns = []
    for line in open(f):
        m = re.match(r"namespace\s+(\S+)", line)
        if m:
            ns.append(m.group(1))
        m = re.match(r"end\s+(\S+)", line)
        if m and ns and ns[-1] == m.group(1):
            ns.pop()
        m = re.match(r"(?:private\s+)?theorem\s+(C(\d+)_\S+)", line)
        if m:
            thms.setdefault("C" + m.group(2), []).append(".".join(ns + [m.group(1)]))
claims = []
for p in props:
    i = p["id"]
    ts = thms.get(i, [])
    n = notes.get(i, {})
    if not ts and "status" not in n:
        continue
    st = n.get("status") or ("partial" if any(t.endswith("_partial") for t in ts) else "proved")
    claims.append({"property": i, "status": st, "theorems": ts, "note": n.get("note", "")})
json.dump({"claims": claims}, open(root + "/MANIFEST.json", "w"), indent=1, ensure_ascii=False)
print(len(claims), "claims;", sum(len(c["theorems"]) for c in claims), "theorems; missing:",
      [p["id"] for p in props if p["id"] not in {c["property"] for c in claims}])
