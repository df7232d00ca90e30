#!/usr/bin/env python3
"""Copy the constant tables of /repo into Lean modules under lean/Verif/Gen.

Float tables are stored as exact decimal numerators over a common power of ten
(the C literal 0.049971 becomes 49971 over 10^6), so no rounding happens here.
Usage: tools/gen_tables.py [/repo] [/verif/lean/Verif/Gen]
"""
import re, sys, os
from decimal import Decimal

repo = sys.argv[1] if len(sys.argv) > 1 else "/repo"
out = sys.argv[2] if len(sys.argv) > 2 else "/verif/lean/Verif/Gen"

def blank_comments(src):
    def f(m):
        return re.sub(r"[^\n]", " ", m.group(0))
    return re.sub(r"/\*.*?\*/|//[^\n]*", f, src, flags=re.S)

def tables(path):
    src = blank_comments(open(os.path.join(repo, path)).read())
    for m in re.finditer(r"const\s+(int|float)\s+(\w+)((?:\[\d+\])+)\s*=\s*\{(.*?)\}\s*;", src, flags=re.S):
        ty, name, dims, body = m.groups()
        dims = [int(d) for d in re.findall(r"\[(\d+)\]", dims)]
        toks = re.findall(r"[-+]?(?:0[xX][0-9a-fA-F]+|\d*\.?\d+(?:[eE][-+]?\d+)?)f?", body)
        l0 = src.count("\n", 0, m.start()) + 1
        l1 = src.count("\n", 0, m.end()) + 1
        yield ty, name, dims, toks, l0, l1

def shape(vals, dims):
    if len(dims) == 1:
        return vals
    n = len(vals) // dims[0]
    return [shape(vals[i * n:(i + 1) * n], dims[1:]) for i in range(dims[0])]

def lit(v, w=110):
    if isinstance(v[0], list):
        return "[" + ",\n ".join(lit(x) for x in v) + "]"
    s, line = "", ""
    for i, x in enumerate(v):
        t = str(x) + (", " if i + 1 < len(v) else "")
        if len(line) + len(t) > w:
            s += line.rstrip() + "\n  "
            line = ""
        line += t
    return "[" + s + line + "]"

def leanty(n, base):
    return base if n == 0 else "List " + (leanty(n - 1, base) if n == 1 else "(" + leanty(n - 1, base) + ")")

CHUNK = 64

def emit(o, name, ty, vals, dims, doc):
    """A definition; tables with many rows are split into chunks so that elaboration stays fast."""
    if len(dims) == 1 or dims[0] <= CHUNK:
        o.append(f"/-- {doc} -/\ndef {name} : {ty} :=\n {lit(shape(vals, dims))}\n")
        return
    rows = shape(vals, dims)
    parts = []
    for i in range(0, len(rows), CHUNK):
        part = f"{name}_rows{i}"
        parts.append(part)
        o.append(f"/-- Rows {i}..{min(i + CHUNK, len(rows)) - 1} of {doc} -/\ndef {part} : {ty} :=\n {lit(rows[i:i + CHUNK])}\n")
    o.append(f"/-- {doc} -/\ndef {name} : {ty} :=\n  {' ++ '.join(parts)}\n")

files = [
    ("Ecc", "src/ecc/ecc_const.c"),
    ("EccLut", "src/ecc/ecc.c"),
    ("Imbe", "src/internal/imbe7200x4400_const.h"),
    ("Ambe2450", "src/internal/ambe3600x2450_const.h"),
    ("Ambe2400", "src/internal/ambe3600x2400_const.h"),
    ("Window", "src/internal/mbelib_const.h"),
    ("Unvoiced", "src/core/mbe_unvoiced_fft.c"),
]
os.makedirs(out, exist_ok=True)
for mod, path in files:
    o = []
    o.append(f"/-! Generated by tools/gen_tables.py from /repo/{path}; do not edit. -/\n\nset_option maxRecDepth 20000\n\nnamespace Verif.Gen\n")
    for ty, name, dims, toks, l0, l1 in tables(path):
        total = 1
        for d in dims:
            total *= d
        if ty == "int":
            vals = [int(t, 0) for t in toks]
            assert len(vals) == total, (name, len(vals), total)
            neg = any(v < 0 for v in vals)
            base = "Int" if neg else "Nat"
            emit(o, name, leanty(len(dims), base), vals, dims, f"`{name}`, {path}:{l0}-{l1}.")
        else:
            vals = [Decimal(t.rstrip("f")) for t in toks]
            pad = ""
            if len(vals) != total:
                assert len(vals) < total and len(dims) == 1, (name, len(vals), total)
                pad = f" The initialiser has {len(vals)} entries; C zero-fills the rest."
                vals += [Decimal(0)] * (total - len(vals))
            e = max(0, max(-v.as_tuple().exponent for v in vals))
            ints = [int(v.scaleb(e)) for v in vals]
            assert all(Decimal(i).scaleb(-e) == v for i, v in zip(ints, vals))
            emit(o, name, leanty(len(dims), "Int"), ints, dims, f"`{name}`, {path}:{l0}-{l1}, numerators over 10^{e}.{pad}")
            o.append(f"/-- Common denominator of `{name}` ({path}:{l0}-{l1}). -/\ndef {name}_den : Nat := {10**e}\n")
    o.append("end Verif.Gen\n")
    open(os.path.join(out, mod + ".lean"), "w").write("\n".join(o))
    print(mod, [(n, d) for _, n, d, _, _, _ in tables(path)])
