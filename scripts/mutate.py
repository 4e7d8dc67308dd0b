#!/usr/bin/env python3
"""Apply each edit of seeded/mutations.py to a scratch copy of the model, rebuild, and log which theorems fail.
usage: mutate.py [first index]      (edits whose description is already in LOG.jsonl are skipped)"""
import json, os, re, shutil, subprocess, sys
V = os.path.join(os.path.dirname(os.path.abspath(__file__)), "..")
SCR = os.environ.get("MUTDIR", "/tmp/mut")
sys.path.insert(0, os.path.join(V, "seeded"))
from mutations import MUT
LOG = os.path.join(V, "seeded", "LOG.jsonl")
done = set()
if os.path.exists(LOG):
    for l in open(LOG):
        d = json.loads(l)
        if d["caught"] or d.get("note"): done.add((d["definition"], d["edit"]))   # survivors are tried again after tightening
def sync():
    subprocess.run(["rm", "-rf", SCR + "/lean"], check=True)
    subprocess.run(["cp", "-a", SCR + "/base", SCR + "/lean"], check=True)
os.makedirs(SCR, exist_ok=True)
subprocess.run(["rm", "-rf", SCR + "/base"], check=True)
subprocess.run(["cp", "-a", os.path.join(V, "lean"), SCR + "/base"], check=True)
def modules_of(claim):
    """the modules that hold the theorems of the property named by the claim: these are built first, the rest only if they still build"""
    ids = re.findall(r"C\d+", claim)[:1]
    names = [t.split(".")[-1] for c in json.load(open(os.path.join(V, "MANIFEST.json")))["claims"] if c["property"] in ids for t in c["theorems"]]
    out = []
    for f in sorted(os.listdir(os.path.join(V, "lean/Verif/Props"))):
        t = open(os.path.join(V, "lean/Verif/Props", f)).read()
        if any(re.search(r"^theorem (?:[\w.]*\.)?" + re.escape(n) + r"(?![\w'])", t, re.M) for n in names): out.append("Verif.Props." + f[:-5])
    return out
def enclosing(path, line):
    ls = open(path).read().split("\n")[:line]
    for l in reversed(ls):
        m = re.match(r"\s*(?:private |protected |@\[.*\] )*(theorem|lemma|def|example|instance|structure|abbrev)\s*([^\s:({\[]*)", l)
        if m: return (m.group(1) + " " + m.group(2)).strip() if m.group(1) != "theorem" else m.group(2)
    return "?"
for (fn, dfn, old, new, claim, extra) in MUT:
    edit = f"{old.strip()}  ==>  {new.strip()}"
    if (dfn, edit) in done: continue
    sync()
    p = f"{SCR}/lean/Verif/{fn}.lean"
    s = open(p).read()
    # restrict to the definition
    i = re.search(r"^(?:noncomputable def|def|theorem|structure) " + re.escape(dfn.split(".")[-1] if ("def " + dfn) not in s else dfn) + r"(?![\w'])", s, re.M)
    if not i: print("NO DEF", fn, dfn); continue
    j = s.find(old, i.start())
    nxt = re.compile(r"^(?:def|theorem|/--|/-!|end|inductive|structure)", re.M).search(s, i.end())
    if j < 0 or (nxt and j > nxt.start()): print("NO MATCH", fn, dfn, old); continue
    s = s[:j] + new + s[j + len(old):]
    open(p, "w").write(s)
    first = modules_of(claim)
    r = subprocess.run(["lake", "build"] + first, cwd=SCR + "/lean", capture_output=True, text=True)
    if first and "error: Verif/" not in r.stdout + r.stderr:
        r = subprocess.run(["lake", "build"], cwd=SCR + "/lean", capture_output=True, text=True)
    out = r.stdout + r.stderr
    failed, mods = [], []
    for m in re.finditer(r"^error: (Verif/\S+\.lean):(\d+):\d+:", out, re.M):
        t = enclosing(SCR + "/lean/" + m.group(1), int(m.group(2)))
        if t not in failed: failed.append(t)
        if m.group(1) not in mods: mods.append(m.group(1))
    built_err = any(x.startswith("Verif/Model") for x in mods)
    d = {"definition": dfn, "file": f"lean/Verif/{fn}.lean", "edit": edit, "claim": claim, "failed": failed,
         "modules_failed": mods, "caught": bool(failed), "tightened": []}
    if built_err: d["note"] = "the edited model itself did not compile"
    if extra: d["note"] = extra
    open(LOG, "a").write(json.dumps(d, ensure_ascii=False) + "\n")
    print("CAUGHT" if failed else "SURVIVED", dfn, "|", edit[:90], "|", claim[:20], "|", failed[:6], "MODEL-ERR" if built_err else "", flush=True)
