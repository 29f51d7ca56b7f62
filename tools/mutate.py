#!/usr/bin/env python3
"""Mutation test: apply wrong edits to a scratch copy of the model and see which theorems stop proving.

usage: mutate.py FROM [TO]   (indices into MUTANTS; appends to seeded/LOG.jsonl)
"""
import json, os, re, shutil, subprocess, sys
SRC = "/verif/lean"
DST = "/tmp/mut/lean"
V = "Verif/Visitor.lean"; CE = "Verif/ChildExpr.lean"; CX = "Verif/Context.lean"
TA = "Verif/TypeAnalysis.lean"; AR = "Verif/Args.lean"; UT = "Verif/Utils.lean"
DX = "Verif/Derive/Expand.lean"; DE = "Verif/Derive/Emit.lean"; DT = "Verif/Derive/Table.lean"
SY = "Verif/Syntax.lean"
sys.path.insert(0, os.path.dirname(__file__))
from mutants import MUTANTS

def decl_at(path, line):
    ls = open(path).read().split("\n")
    for i in range(min(line, len(ls)) - 1, -1, -1):
        m = re.match(r"\s*(?:@\[[^\]]*\]\s*)?(?:private )?(theorem|def|example|instance|lemma|abbrev)\b\s*([^\s:({\[]*)", ls[i])
        if m:
            return (m.group(2) or "example") if m.group(1) != "example" else "example@%d" % (i + 1)
    return "?"

def manifest():
    d = {}
    for c in json.load(open("/verif/MANIFEST.json"))["claims"]:
        for t in c["theorems"]:
            d[t.split(".", 1)[1] if t.startswith("AutoEnums.") else t] = c["property"]
    return d

def modules_of_theorems():
    """property theorem -> module"""
    out = {}
    names = set(manifest())
    for r, _, fs in os.walk(DST + "/Verif"):
        for f in fs:
            p = os.path.join(r, f)
            for m in re.finditer(r"^theorem ([^\s:({\[]+)", open(p).read(), re.M):
                for n in names:
                    if n == m.group(1) or n.endswith("." + m.group(1)):
                        out[n] = os.path.relpath(p, DST)[:-5].replace("/", ".")
    return out

def imports():
    d = {}
    for r, _, fs in os.walk(DST + "/Verif"):
        for f in fs:
            p = os.path.join(r, f)
            d[os.path.relpath(p, DST)[:-5].replace("/", ".")] = re.findall(r"^import (\S+)", open(p).read(), re.M)
    return d

def run(m):
    f, old, new, edit, claim = m[:5]
    p = os.path.join(DST, f)
    s = open(p).read()
    assert s.count(old) == 1, (f, old, s.count(old))
    open(p, "w").write(s.replace(old, new))
    try:
        r = subprocess.run(["nice", "lake", "build"], cwd=DST, capture_output=True, text=True)
        o = r.stdout + r.stderr
        failed = {}
        for x in re.finditer(r"error: (Verif/\S+?\.lean):(\d+):", o):
            failed.setdefault(x.group(1)[:-5].replace("/", "."), [])
            n = decl_at(os.path.join(DST, x.group(1)), int(x.group(2)))
            if n not in failed[x.group(1)[:-5].replace("/", ".")]:
                failed[x.group(1)[:-5].replace("/", ".")].append(n)
        imp = imports()
        bad = set(failed)
        ch = True
        while ch:
            ch = False
            for k, v in imp.items():
                if k not in bad and any(i in bad for i in v):
                    bad.add(k); ch = True
        mt = modules_of_theorems()
        direct = sorted(n for n, mod in mt.items() if mod in failed and n in failed[mod])
        blocked = sorted(n for n, mod in mt.items() if mod in bad and n not in direct)
        return dict(definition=f, edit=edit, claim_broken=claim, killed=bool(failed),
                    failed={k: v[:12] for k, v in failed.items()},
                    property_theorems_failed=direct, property_theorems_no_longer_checked=blocked,
                    tightened=[])
    finally:
        open(p, "w").write(s)

if __name__ == "__main__":
    a = int(sys.argv[1]); b = int(sys.argv[2]) if len(sys.argv) > 2 else len(MUTANTS)
    os.makedirs("/tmp/mut", exist_ok=True)
    if os.path.exists(DST):
        subprocess.run(["rsync", "-a", "--delete", SRC + "/", DST + "/"]) if shutil.which("rsync") else (shutil.rmtree(DST), subprocess.run(["cp", "-a", SRC, DST]))
    else:
        subprocess.run(["cp", "-a", SRC, DST])
    for i in range(a, b):
        r = run(MUTANTS[i])
        with open("/tmp/mut/log.jsonl", "a") as fh:
            fh.write(json.dumps(dict(n=i, **r)) + "\n")
        print(i, r["killed"], r["failed"], flush=True)
