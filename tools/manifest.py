#!/usr/bin/env python3
"""Writes MANIFEST.json.  Claims: id -> (status, note).  Theorems are collected from
lean/Verif/Props/*.lean by their `Cxx_` prefix."""
import json, re, glob, os
root = os.path.dirname(os.path.dirname(os.path.abspath(__file__)))
exec(open(os.path.join(root, "tools", "claims.py")).read())
thms = {}
for f in sorted(glob.glob(os.path.join(root, "lean/Verif/Props/*.lean"))):
    for m in re.finditer(r"^theorem (C(\d\d+)_\w+)", open(f).read(), re.M):
        thms.setdefault("C" + m.group(2), []).append("Verif.Props." + m.group(1))
ids = [json.loads(l)["id"] for l in open(os.path.join(root, "properties.jsonl"))]
claims = []
for i in ids:
    st, note = CLAIMS.get(i, ("partial", "not yet proved"))
    claims.append(dict(property=i, status=st if thms.get(i) else ("not_applicable" if st == "not_applicable" else "partial"),
                       theorems=thms.get(i, []), note=note))
json.dump({"claims": claims}, open(os.path.join(root, "MANIFEST.json"), "w"), indent=1, ensure_ascii=False)
print({i: len(thms.get(i, [])) for i in ids if thms.get(i)}, "missing:", [i for i in ids if not thms.get(i)])
