#!/usr/bin/env python3
"""Regenerate MANIFEST.json from the property theorems (names `Cnn_…` in lean/Verif/Props)."""
import re, glob, json, os
root = os.path.dirname(os.path.dirname(os.path.abspath(__file__)))
props = [json.loads(l) for l in open(f"{root}/properties.jsonl") if l.strip()]
notes = json.load(open(f"{root}/tools/notes.json"))
thms = {}
for f in sorted(glob.glob(f"{root}/lean/Verif/Props/*.lean")):
    for m in re.finditer(r"^theorem (C(\d\d+)_\w+)", open(f).read(), re.M):
        thms.setdefault("C" + m.group(2), []).append("Verif." + m.group(1))
claims = []
for p in props:
    i = p["id"]
    t = thms.get(i, [])
    n = notes.get(i, {})
    st = n.get("status") or ("partial" if (not t or any(x.endswith("_partial") for x in t)) else "proved")
    claims.append({"property": i, "status": st, "theorems": t, "note": n.get("note", "" if t else "not modelled yet")})
json.dump({"claims": claims}, open(f"{root}/MANIFEST.json", "w"), indent=1, ensure_ascii=False)
print({c["property"]: (c["status"], len(c["theorems"])) for c in claims})
