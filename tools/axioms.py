#!/usr/bin/env python3
"""Rewrites the last section of DESIGN.md: the axioms of each theorem named in MANIFEST.json, as printed by Lean.
Run after `lake build`."""
import json, re, pathlib, subprocess, tempfile
root = pathlib.Path(__file__).resolve().parent.parent
names = []
for c in json.load(open(root / "MANIFEST.json"))["claims"]:
    names += [t for t in c["theorems"] if t not in names]
with tempfile.NamedTemporaryFile("w", suffix=".lean", delete=False) as f:
    f.write("import Verif\n" + "".join(f"#print axioms {n}\n" for n in names))
out = subprocess.run(["lake", "env", "lean", f.name], cwd=root / "lean", capture_output=True, text=True).stdout
out = re.sub(r"\s+", " ", out)
groups = {}
for n in names:
    m = re.search(r"'" + re.escape(n) + r"' (does not depend on any axioms|depends on axioms: \[([^\]]*)\])", out)
    groups.setdefault(m.group(2) or "none", []).append(n.removeprefix("Sharg."))
text = "## Axioms of each theorem\n\nWritten by `tools/axioms.py` from `#print axioms`.\n"
for k in sorted(groups, key=lambda k: (k.count(","), k)):
    text += f"\n### {k} ({len(groups[k])} theorems)\n\n" + ", ".join(f"`{n}`" for n in sorted(groups[k])) + "\n"
d = root / "DESIGN.md"
s = d.read_text()
s = s.split("## Axioms of each theorem")[0].rstrip() + "\n\n" + text
d.write_text(s)
print({k: len(v) for k, v in groups.items()})
