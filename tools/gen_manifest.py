#!/usr/bin/env python3
"""Collects the property theorems in lean/Verif/Props and writes MANIFEST.json.

Status and notes per property are kept in tools/status.json.
"""
import json, pathlib, re

root = pathlib.Path(__file__).resolve().parent.parent
status = json.loads((root / "tools/status.json").read_text())
found = {}
for f in sorted((root / "lean/Verif/Props").glob("*.lean")):
    for m in re.finditer(r"^theorem (C\d\d)(_\w+)", f.read_text(), re.M):
        found.setdefault(m.group(1), []).append(f"Verif.Props.{m.group(1)}{m.group(2)}")
ids = [json.loads(l)["id"] for l in (root / "properties.jsonl").read_text().splitlines() if l.strip()]
claims = []
for i in ids:
    if i in found:
        s = status.get(i, {})
        claims.append({"property": i, "status": s.get("status", "proved"), "theorems": found[i], "note": s.get("note", "")})
(root / "MANIFEST.json").write_text(json.dumps({"claims": claims}, indent=1, ensure_ascii=False) + "\n")
print(len(claims), "claims;", "missing:", [i for i in ids if i not in found])
