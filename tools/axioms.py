#!/usr/bin/env python3
"""Write AXIOMS.md: the axioms each theorem of MANIFEST.json depends on, as Lean reports them."""
import json, pathlib, re, subprocess, tempfile
root = pathlib.Path(__file__).resolve().parent.parent
claims = json.loads((root / "MANIFEST.json").read_text())["claims"]
names = [t for c in claims for t in c["theorems"]]
with tempfile.NamedTemporaryFile("w", suffix=".lean", delete=False) as f:
    f.write("import Verif\n" + "".join(f"#print axioms {t}\n" for t in names))
out = subprocess.run(["lake", "env", "lean", f.name], cwd=root / "lean", capture_output=True, text=True).stdout
pathlib.Path(f.name).unlink()
axioms = {}
for m in re.finditer(r"'(\S+)' (?:depends on axioms: \[([^\]]*)\]|does not depend on any axioms)", out):
    axioms[m.group(1)] = ", ".join((m.group(2) or "none").split(", ")).replace("\n", "")
lines = ["# Axioms of each theorem", "", "Generated by `tools/axioms.py` from `#print axioms`.", ""]
for c in claims:
    lines.append(f"## {c['property']}\n")
    for t in c["theorems"]:
        lines.append(f"- `{t}`: {re.sub(' +', ' ', axioms[t])}")
    lines.append("")
(root / "AXIOMS.md").write_text("\n".join(lines))
print(len(names), "theorems;", sorted(set(axioms.values())))
