#!/usr/bin/env python3
"""Write MANIFEST.json from the theorem names in lean/Verif/Props and tools/notes.json.

A theorem `Cnn_...` belongs to property Cnn. A property is "partial" when notes.json
says so, "proved" when it has theorems otherwise, and is left out when it has none.
"""
import json, pathlib, re

root = pathlib.Path(__file__).resolve().parent.parent
ids = [json.loads(l)["id"] for l in (root / "properties.jsonl").read_text().splitlines() if l.strip()]
notes = json.loads((root / "tools" / "notes.json").read_text())
names = {}
for f in sorted((root / "lean" / "Verif" / "Props").glob("*.lean")):
    for m in re.finditer(r"^theorem (C\d+)(_\w+)", f.read_text(), re.M):
        names.setdefault(m[1], []).append("Cmomy." + m[1] + m[2])
for k in names:
    assert k in ids, k
claims = []
for i in ids:
    n = notes.get(i, {})
    if i in names:
        claims.append({"property": i, "status": n.get("status", "proved"),
                       "theorems": names[i], "note": n.get("note", "")})
    elif n.get("status") == "not_applicable":
        claims.append({"property": i, "status": "not_applicable", "theorems": [], "note": n["note"]})
    else:
        print("no theorem yet:", i)
(root / "MANIFEST.json").write_text(json.dumps({"claims": claims}, indent=1) + "\n")
print(len(claims), "claims", sum(len(c["theorems"]) for c in claims), "theorems")
