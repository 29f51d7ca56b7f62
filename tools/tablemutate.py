#!/usr/bin/env python3
"""Mutation test of the table of implementations (Verif/Derive/Table.lean), in the scratch copy of automutate.py.

One datum of one record is changed at a time: a method, its receiver or its parameters, a spelling of the trait, the
feature, an associated type, the supertrait, the pin flag, a bound or the body of a method.
usage: tablemutate.py list | tablemutate.py COUNT [SEED]     (appends to /tmp/auto/table.jsonl)
"""
import json, os, random, re, subprocess, sys
sys.path.insert(0, os.path.dirname(os.path.abspath(__file__)))
import automutate as A
F = "Verif/Derive/Table.lean"

def mutants():
    s = open(A.SRC + "/" + F).read()
    start = s.index("def table : List Impl := [")
    out = []
    for m in re.compile(r"  \{ path := \"([^\"]*)\".*?\}(?=,\n  --|\s*\])", re.S).finditer(s, start):
        rec, p, off = m.group(0), m.group(1), m.start()
        def add(a, b, new, what):
            out.append((p, off + a, off + b, rec[a:b], new, what))
        for x in re.finditer(r"⟨\"(\w+)\", \.(\w+), \[([^\]]*)\]⟩(,\s*)?", rec):
            name, recv, ps = x.group(1), x.group(2), x.group(3)
            add(x.start(), x.end(), "", "method %s dropped" % name)
            e = x.end() - len(x.group(4) or "")
            for r in {"ref": ["mut"], "mut": ["ref"], "val": ["ref"], "pin": ["mut"]}.get(recv, []):
                add(x.start(), e, "⟨\"%s\", .%s, [%s]⟩" % (name, r, ps), "receiver of %s" % name)
            if ps:
                l = ps.split(", ")
                add(x.start(), e, "⟨\"%s\", .%s, [%s]⟩" % (name, recv, ", ".join(l[:-1])), "last parameter of %s dropped" % name)
            add(x.start(), e, "⟨\"%s\", .%s, [%s]⟩" % (name + "_", recv, ps), "method %s renamed" % name)
        x = re.search(r"names := \[([^\]]*)\]", rec)
        l = x.group(1).split(", ")
        for i in range(len(l)):
            add(x.start(), x.end(), "names := [%s]" % ", ".join(l[:i] + l[i + 1:]), "spelling %s dropped" % l[i])
        for f, w in [(r",\s*feature := some \.\w+", ""), (r",\s*assoc := \[[^\]]*\]", ""), (r",\s*super := some \"\w+\"", ""),
                     (r",\s*pin := true", ""), (r",\s*superTrait := \"[^\"]*\"", ""), (r",\s*params := \[[^\]]*\]", ""),
                     (r",\s*fnLike := true", ""), (r",\s*static := true", ""), (r",\s*generics := \[.*?\)\]", ""),
                     (r"\.call \"(\w+)\"", None), (r"\.some\b(?! )", None), (r"trait := \"([^\"]*)\"", None)]:
            for y in re.finditer(f, rec):
                if w == "": add(y.start(), y.end(), "", "dropped " + y.group(0).strip(", \n"))
                elif y.group(0).startswith(".call"): add(y.start(), y.end(), '.call "other"', "calls another method")
                elif y.group(0).startswith("trait"): add(y.start(), y.end(), 'trait := "%s2"' % y.group(1), "another trait")
        if "pin := true" not in rec:
            y = re.search(r"trait := \"[^\"]*\"", rec)
            add(y.end(), y.end(), ", pin := true", "pin := true added")
    return out

if __name__ == "__main__":
    ms = mutants()
    if sys.argv[1] == "list":
        for m in ms: print(m[0], m[5], repr(m[3]), "->", repr(m[4]))
        print(len(ms))
        sys.exit()
    A.prepare()
    log = "/tmp/auto/table.jsonl"
    done = set()
    if os.path.exists(log):
        done = {(x["record"], x["old"], x["new"]) for x in map(json.loads, open(log))}
    random.Random(int(sys.argv[2]) if len(sys.argv) > 2 else 1).shuffle(ms)
    n, base = 0, open(A.DST + "/" + F).read()
    for p, a, b, old, new, what in ms:
        if n >= int(sys.argv[1]): break
        if (p, old, new) in done: continue
        n += 1
        assert base[a:b] == old
        open(A.DST + "/" + F, "w").write(base[:a] + new + base[b:])
        r = subprocess.run(["nice", "-n", "15", "lake", "build"], cwd=A.DST, capture_output=True, text=True)
        open(A.DST + "/" + F, "w").write(base)
        hits = [A.decl_at(A.DST + "/" + x, int(y)) for x, y in re.findall(r"error: (Verif/\S+?\.lean):(\d+):", r.stdout + r.stderr)]
        names = sorted({y for k, y in hits if y})
        status = "survived" if not hits else "invalid" if any(y == "table" for y in names) else "killed"
        with open(log, "a") as fh:
            fh.write(json.dumps(dict(record=p, what=what, old=old, new=new, status=status, failed=names), ensure_ascii=False) + "\n")
        print(status, p, what, names, flush=True)
