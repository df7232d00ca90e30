#!/usr/bin/env python3
"""Writes AXIOMS.md: the axioms of every property theorem. Run after `lake build`."""
import os, re, subprocess, tempfile, json

here = os.path.dirname(os.path.abspath(__file__))
lean = os.path.join(here, "../lean")
names = [t for c in json.load(open(os.path.join(here, "../MANIFEST.json")))["claims"] for t in c["theorems"]]
src = "import Verif\n" + "".join(f"#print axioms {n}\n" for n in names)
with tempfile.NamedTemporaryFile("w", suffix=".lean", delete=False) as f:
    f.write(src)
out = subprocess.run(["lake", "env", "lean", f.name], cwd=lean, capture_output=True, text=True).stdout
os.unlink(f.name)
out = re.sub(r"\s*\n\s+", " ", out)
rows = []
for l in out.split("\n"):
    m = re.match(r"'(\S+)' depends on axioms: \[(.*)\]", l)
    if m:
        rows.append((m.group(1), m.group(2)))
        continue
    m = re.match(r"'(\S+)' does not depend on any axioms", l)
    if m:
        rows.append((m.group(1), "none"))
assert [r[0] for r in rows] == names, (len(rows), len(names))
with open(os.path.join(here, "../AXIOMS.md"), "w") as g:
    g.write("# Axioms of the property theorems\n\nGenerated by `tools/axioms.py` from `#print axioms`.\n\n| theorem | axioms |\n|---|---|\n")
    for n, a in rows:
        g.write(f"| `{n}` | {a} |\n")
print(len(rows), sorted({x.strip() for _, a in rows for x in a.split(",")}))
