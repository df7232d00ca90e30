#!/usr/bin/env python3
"""Lists the lines of /repo that no comment in lean/Verif/Model or lean/Verif/Gen cites.

Citations have the form `src/dir/file.c:120-135` or `src/dir/file.c:120`, optionally followed by `, 140-150`.
"""
import re, glob, os, sys

REPO = sys.argv[1] if len(sys.argv) > 1 else "/repo"
here = os.path.dirname(os.path.abspath(__file__))
text = ""
for f in glob.glob(os.path.join(here, "../lean/Verif/*.lean")) + glob.glob(os.path.join(here, "../lean/Verif/*/*.lean")):
    text += open(f).read() + "\n"
cited = {}
for m in re.finditer(r"((?:src|include)/[\w/\-]+\.[ch]):(\d+(?:\s*-\s*\d+)?(?:,\s*\d+(?:\s*-\s*\d+)?)*)", text):
    s = cited.setdefault(m.group(1), set())
    for r in m.group(2).split(","):
        a, _, b = r.partition("-")
        a = int(a); b = int(b) if b.strip() else a
        n = sum(1 for _ in open(os.path.join(REPO, m.group(1))))
        if b > n or b < a:
            print("bad citation", m.group(0))
        s.update(range(a, b + 1))
files = sorted(glob.glob(REPO + "/src/*/*.[ch]")) + [REPO + "/include/mbelib-neo/mbelib.h"]
for f in files:
    rel = os.path.relpath(f, REPO)
    lines = open(f).read().split("\n")
    comment = False
    todo = []
    for i, l in enumerate(lines, 1):
        t = l.strip()
        if comment:
            if "*/" in t: comment = False
            continue
        if t.startswith("/*"):
            if "*/" not in t: comment = True
            continue
        if not t or t.startswith("//") or t.startswith("#") or t in "{}" or t == "};":
            continue
        if i not in cited.get(rel, ()):
            todo.append(i)
    runs = []
    for i in todo:
        if runs and i - runs[-1][1] <= 4: runs[-1][1] = i
        else: runs.append([i, i])
    if todo:
        print(f"{rel}: {len(todo)} lines not cited:", ", ".join(f"{a}-{b}" for a, b in runs))
