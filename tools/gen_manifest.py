#!/usr/bin/env python3
"""Regenerate MANIFEST.json from the `theorem Cnn_...` names in lean/Verif/Props and notes below."""
import json, re, pathlib
root = pathlib.Path(__file__).resolve().parent.parent
notes = json.loads((root / "tools" / "notes.json").read_text())
names = {}
for f in sorted((root / "lean" / "Verif").rglob("*.lean")):
    for m in re.finditer(r"^theorem (C\d+)_(\w+)", f.read_text(), re.M):
        names.setdefault(m.group(1), []).append(f"Bip324.{m.group(1)}_{m.group(2)}")
claims = []
for line in (root / "properties.jsonl").read_text().splitlines():
    pid = json.loads(line)["id"]
    n = notes.get(pid)
    ths = names.get(pid, [])
    if not ths or n is None:
        continue
    for extra in n.get("also", []):
        ths = ths + ["Bip324." + extra]
    claims.append({"property": pid, "status": n["status"], "theorems": ths, "note": n["note"]})
(root / "MANIFEST.json").write_text(
    '{"claims": [\n' + ",\n".join(" " + json.dumps(c) for c in claims) + "\n]}\n")
print(len(claims), "claims;", "missing:", [json.loads(l)["id"] for l in (root / "properties.jsonl").read_text().splitlines() if json.loads(l)["id"] not in [c["property"] for c in claims]])
