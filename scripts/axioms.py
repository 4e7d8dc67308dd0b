#!/usr/bin/env python3
"""Print the axioms of every theorem named in MANIFEST.json (needs a finished lake build) into AXIOMS.md."""
import json, os, re, subprocess, tempfile
V = os.path.join(os.path.dirname(os.path.abspath(__file__)), "..")
M = json.load(open(os.path.join(V, "MANIFEST.json")))
names = []
for c in M["claims"]:
    for t in c["theorems"]:
        if t not in names: names.append(t)
with tempfile.NamedTemporaryFile("w", suffix=".lean", delete=False) as f:
    f.write("import Verif\n" + "".join(f"#print axioms {n}\n" for n in names))
r = subprocess.run(["lake", "env", "lean", f.name], cwd=os.path.join(V, "lean"), capture_output=True, text=True)
out = (r.stdout + r.stderr).replace("\n ", " ")
got = {}
for m in re.finditer(r"'([^']+)' (does not depend on any axioms|depends on axioms: \[([^\]]*)\])", out):
    got[m.group(1)] = tuple(sorted(x.strip() for x in (m.group(3) or "").split(",") if x.strip()))
groups = {}
for n in names: groups.setdefault(got.get(n, ("NOT FOUND",)), []).append(n)
with open(os.path.join(V, "AXIOMS.md"), "w") as f:
    f.write("# Axioms used by the theorems of MANIFEST.json\n\nGenerated by scripts/axioms.py (`#print axioms`).\n")
    for a in sorted(groups):
        f.write(f"\n## {', '.join(a) if a else 'none'}\n\n" + "".join(f"* {n}\n" for n in groups[a]))
print({a: len(v) for a, v in groups.items()})
