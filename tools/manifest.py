#!/usr/bin/env python3
"""Writes MANIFEST.json: collects the theorems of each property by their names (Cnn_...) from lean/Verif/Props and joins
them with the notes in tools/notes.json. A property with a `_partial` theorem or a theorem listed as a counterexample is
"partial"."""
import json, re, pathlib
root = pathlib.Path(__file__).resolve().parent.parent
notes = json.load(open(root / "tools" / "notes.json"))
thms = {}
for f in sorted((root / "lean/Verif/Props").glob("*.lean")):
    for m in re.finditer(r"^theorem ((?:C\d+_)+\w+)", f.read_text(), re.M):
        name = m.group(1)
        for c in re.findall(r"C\d+(?=_)", re.match(r"(?:C\d+_)+", name).group(0)):
            thms.setdefault(c, []).append(name)
claims = []
for line in open(root / "properties.jsonl"):
    p = json.loads(line)["id"]
    ts = thms.get(p, [])
    if not ts:
        print("no theorem:", p)
        continue
    n = notes.get(p, {})
    status = n.get("status", "partial" if any(t.endswith("_partial") for t in ts) else "proved")
    if p not in notes: print("no note:", p)
    claims.append({"property": p, "status": status, "theorems": ["Sharg." + t for t in ts], "note": n.get("note", "")})
(root / "MANIFEST.json").write_text(json.dumps({"claims": claims}, indent=1, ensure_ascii=False) + "\n")
print({s: sum(c["status"] == s for c in claims) for s in ("proved", "partial", "not_applicable")})
