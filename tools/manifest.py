#!/usr/bin/env python3
"""Rebuild MANIFEST.json, lean/Verif.lean from the theorem names
in lean/Verif/Props (theorem `Cnn_...` belongs to property Cnn) and the notes below tools/."""
import json, re, pathlib
root = pathlib.Path(__file__).resolve().parent.parent
notes = json.loads((root / "tools/notes.json").read_text())
thms = {}
for f in sorted((root / "lean/Verif/Props").glob("*.lean")):
    for m in re.finditer(r"^(?:private )?theorem (C\d\d\d?_\S+)", f.read_text(), re.M):
        thms.setdefault(m.group(1).split("_")[0], []).append("Pansfem." + m.group(1))
claims = []
for line in (root / "properties.jsonl").read_text().splitlines():
    p = json.loads(line)["id"]
    n = notes.get(p, {})
    if p in thms or n.get("status") == "not_applicable":
        claims.append({"property": p, "status": n.get("status", "partial"),
                       "theorems": thms.get(p, []), "note": n.get("note", "")})
    if p in thms and p not in notes:
        print("no note for", p)
(root / "MANIFEST.json").write_text(json.dumps({"claims": claims}, indent=1, ensure_ascii=False) + "\n")
mods = sorted(str(f.relative_to(root / "lean"))[:-5].replace("/", ".")
              for f in (root / "lean/Verif").rglob("*.lean"))
(root / "lean/Verif.lean").write_text("".join(f"import {m}\n" for m in mods))
print(sum(len(c["theorems"]) for c in claims), "theorems,", len(claims), "claims")
