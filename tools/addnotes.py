#!/usr/bin/env python3
"""Merge notes given on stdin (JSON object) into notes.json and regenerate MANIFEST.json."""
import json, sys, pathlib, runpy
root = pathlib.Path(__file__).resolve().parent
p = root / "notes.json"
d = json.loads(p.read_text())
d.update(json.loads(sys.stdin.read()))
p.write_text("{\n" + ",\n".join(json.dumps(k) + ": " + json.dumps(d[k]) for k in sorted(d)) + "\n}\n")
runpy.run_path(str(root / "gen_manifest.py"))
