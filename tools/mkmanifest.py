#!/usr/bin/env python3
"""Build MANIFEST.json from the theorem names Cnn_* in lean/Verif/Props and the status table below."""
import json, re, glob, os
root = os.path.dirname(os.path.dirname(os.path.abspath(__file__)))
props = [json.loads(l)["id"] for l in open(f"{root}/properties.jsonl")]
thms = {}
for f in sorted(glob.glob(f"{root}/lean/Verif/Props/*.lean")):
    ns = []
    for line in open(f):
        m = re.match(r"namespace (\S+)", line)
        if m: ns.append(m.group(1))
        m = re.match(r"end (\S+)", line)
        if m and ns and ns[-1] == m.group(1): ns.pop()
        m = re.match(r"theorem (C\d\d)(_\w+'?)", line)
        if m: thms.setdefault(m.group(1), []).append(".".join(ns + [m.group(1) + m.group(2)]))
notes = json.load(open(f"{root}/tools/notes.json"))
claims = []
for p in props:
    t = thms.get(p, [])
    n = notes.get(p, {})
    status = n.get("status") or ("proved" if t else None)
    if not t and status != "not_applicable": continue
    claims.append({"property": p, "status": status, "theorems": t, "note": n.get("note", "")})
json.dump({"claims": claims}, open(f"{root}/MANIFEST.json", "w"), indent=1)
print(len(claims), "claims;", "missing:", [p for p in props if p not in [c["property"] for c in claims]])
