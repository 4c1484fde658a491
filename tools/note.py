#!/usr/bin/env python3
"""tools/note.py < records: each input line is JSON; with "status" it is a note for MANIFEST.json,
with "statement" it is a property for properties.jsonl."""
import json, sys, pathlib
root = pathlib.Path(__file__).resolve().parent.parent
np = root / "tools/notes.json"
notes = json.loads(np.read_text())
pp = root / "properties.jsonl"
props = [json.loads(l) for l in pp.read_text().splitlines()]
for line in sys.stdin:
    if not line.strip():
        continue
    r = json.loads(line)
    if "statement" in r:
        props = [p for p in props if p["id"] != r["id"]] + [r]
    if "status" in r:
        notes[r["id"]] = {"status": r["status"], "note": r["note"]}
        r.pop("status"); r.pop("note")
props.sort(key=lambda p: int(p["id"][1:]))
np.write_text(json.dumps(dict(sorted(notes.items(), key=lambda k: int(k[0][1:]))), indent=1, ensure_ascii=False) + "\n")
pp.write_text("".join(json.dumps(p, ensure_ascii=False) + "\n" for p in props))
