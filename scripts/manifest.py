#!/usr/bin/env python3
# Generates MANIFEST.json and lean/Verif.lean
import json, os, subprocess, re
root = os.path.join(os.path.dirname(os.path.abspath(__file__)), "..")
C = []
def c(prop, status, theorems, note=""):
    C.append(dict(property=prop, status=status, theorems=theorems.split(), note=note))
exec(open(os.path.join(root, "scripts", "claims.py")).read())
C.sort(key=lambda x: int(x["property"][1:]))
json.dump({"claims": C}, open(os.path.join(root, "MANIFEST.json"), "w"), indent=1)
mods = []
for d, _, fs in os.walk(os.path.join(root, "lean", "Verif")):
    for f in fs:
        if f.endswith(".lean"):
            mods.append(os.path.relpath(os.path.join(d, f), os.path.join(root, "lean"))[:-5].replace("/", "."))
open(os.path.join(root, "lean", "Verif.lean"), "w").write("".join("import %s\n" % m for m in sorted(mods)))
# check that the names exist
src = ""
names = set()
for m in mods:
    ns = []
    for l in open(os.path.join(root, "lean", m.replace(".", "/") + ".lean")):
        g = re.match(r"namespace (\S+)", l)
        if g: ns.append(g.group(1))
        g = re.match(r"end (\S+)", l)
        if g and ns and ns[-1] == g.group(1): ns.pop()
        g = re.match(r"(?:private |protected )?theorem (\S+)", l)
        if g: names.add(".".join(ns + [g.group(1)]))
ids = [json.loads(l)["id"] for l in open(os.path.join(root, "properties.jsonl"))]
for x in C:
    assert x["property"] in ids, x
    for t in x["theorems"]:
        if t not in names: print("MISSING", x["property"], t)
done = {x["property"] for x in C}
print("claims", len(C), "missing properties:", [i for i in ids if i not in done])
