#!/usr/bin/env python3
"""Systematic mutation test: small edits at every place of the model, in a scratch copy without the tests.

In the scratch copy every `example` and the test modules are removed and the runs of concrete inputs are not checked,
so that a mutant counts as killed only if a theorem or a lemma stops proving.
usage: automutate.py list | automutate.py COUNT [SEED]     (appends to /tmp/auto/log.jsonl)
"""
import json, os, random, re, shutil, signal, subprocess, sys
SRC, DST = "/verif/lean", "/tmp/auto/lean"
FILES = ["Visitor", "ChildExpr", "Context", "Args", "TypeAnalysis", "Utils", "Derive/Expand", "Derive/Emit"]
OPS = [(r"\btrue\b", "false"), (r"\bfalse\b", "true"), (r"&&", "||"), (r"\|\|", "&&"), (r" == ", " != "), (r" != ", " == "),
       (r"(?<![\w.)])!(?=[\w(])", ""), (r" < ", " ≤ "), (r" ≤ ", " < "), (r" \+ 1\b", " + 2"), (r" \+ 1\b", ""), (r"\b0\b", "1"), (r"\b1\b", "2"), (r"\b2\b", "1"),
       (r"\.isEmpty", ".isEmpty.not"), (r"\.any\b", ".all"), (r"\.all\b", ".any"), (r"\.tail\b", ""),
       (r"\.visitor\b", ".dummy"), (r"\.dummy\b", ".visitor"),
       (r"\.default\b", ".try_"), (r"\.try_\b", ".default"), (r"\bsome (\w+)", "none"), (r" \+\+ ", None),
       (r"\.closure\b", ".default"), (r"if (.+?) then", r"if !(\1) then"), (r"\.dropLast\b", ""), (r"\.filter\b", ".dropWhile"),
       (r"\"auto_enum\"", '"never"'), (r"\"never\"", '"nested"'), (r"\"nested\"", '"never"'), (r"\"marker\"", '"marker1"'),
       (r"with (\w+) := [^,}]+,", "with"), (r", (\w+) := [^,}]+(?= })", ""),
       (r"\.reverse\b", ""), (r"\.getLast\?", ".head?"), (r"\.head\?", ".getLast?")]

def code_lines(path):
    """line numbers of definitions, without comments and theorems"""
    ls = open(path).read().split("\n")
    out, comment, thm = [], False, False
    for i, l in enumerate(ls):
        if comment:
            if "-/" in l: comment = False
            continue
        if l.startswith("/-"):
            if "-/" not in l: comment = True
            continue
        if re.match(r"\s*(@\[.*\]\s*)?(private )?(theorem|example|open|import|namespace|end|instance|variable|set_option|deriving|inductive|structure|abbrev)\b", l):
            thm = True
        elif re.match(r"\s*(@\[.*\]\s*)?(private )?def\b", l):
            thm = False
        if l.strip().startswith("--") or l.strip().startswith("/--"): continue
        if not thm and l.strip(): out.append(i)
    return ls, out

def mutants():
    out = []
    for f in FILES:
        p = SRC + "/Verif/" + f + ".lean"
        ls, idx = code_lines(p)
        for i in idx:
            l = ls[i]
            if re.match(r"\s*def\b", l) and ":=" not in l: continue
            for a, b in OPS:
                for m in re.finditer(a, l):
                    if m.start() < l.find(":=") and re.match(r"\s*def\b", l): continue
                    if b is None:
                        n = l[:m.start()] + " ++ [] ++ " + l[m.end():]
                        continue
                    n = l[:m.start()] + m.expand(b) + l[m.end():]
                    if n != l: out.append((f, i, l, n))
            # drop an arm of a match, if it is a single line and not the last
            if re.match(r"\s*\| .*=> .*", l) and i + 1 < len(ls) and re.match(r"\s*\| .*=>", ls[i + 1]):
                out.append((f, i, l, None))
    return out

def prepare():
    if os.path.exists(DST): shutil.rmtree(DST)
    os.makedirs("/tmp/auto", exist_ok=True)
    subprocess.run(["cp", "-a", SRC, DST], check=True)
    for r, _, fs in os.walk(DST + "/Verif"):
        for f in fs:
            p = os.path.join(r, f)
            s = open(p).read()
            t = s
            if f.startswith("Examples"):
                t = t.replace(":= by decide +kernel", ":= by sorry")
            t = re.sub(r"(\n/--(?:(?!-/).)*-/)?\nexample\b.*?(?=\n\n(?! )|\Z)", "\n", t, flags=re.S)
            if t != s: open(p, "w").write(t)
    p = DST + "/Verif.lean"
    s = open(p).read()
    for m in ("Suite", "ExpandSuite", "Audit"): s = s.replace("import Verif.%s\n" % m, "")
    open(p, "w").write(s)
    r = subprocess.run(["nice", "lake", "build"], cwd=DST, capture_output=True, text=True)
    print((r.stdout + r.stderr)[-1500:])
    assert r.returncode == 0

def run(f, i, old, new):
    p = DST + "/Verif/" + f + ".lean"
    s = open(p).read()
    ls = s.split("\n")
    assert ls[i] == old
    ls = ls[:i] + ([new] if new is not None else []) + ls[i + 1:]
    open(p, "w").write("\n".join(ls))
    try:
        # does the model itself still compile?
        pr = subprocess.Popen(["nice", "-n", "15", "lake", "build"], cwd=DST, stdout=subprocess.PIPE, stderr=subprocess.STDOUT, text=True, start_new_session=True)
        hit = None
        for l in pr.stdout:
            m = re.search(r"error: (Verif/\S+?\.lean):(\d+):", l)
            if m:
                hit = (m.group(1), int(m.group(2)))
                break
        if hit:
            os.killpg(pr.pid, signal.SIGKILL)
        pr.wait()
        return hit
    finally:
        open(p, "w").write(s)

def decl_at(path, line):
    ls = open(path).read().split("\n")
    for i in range(min(line, len(ls)) - 1, -1, -1):
        m = re.match(r"\s*(?:@\[[^\]]*\]\s*)?(?:private )?(theorem|def|example|instance|abbrev)\b\s*([^\s:({\[]*)", ls[i])
        if m: return m.group(1), m.group(2)
    return "?", "?"

if __name__ == "__main__":
    ms = mutants()
    if sys.argv[1] == "list":
        for m in ms: print(m[0], m[1] + 1, repr(m[2]), "->", repr(m[3]))
        print(len(ms))
        sys.exit()
    prepare()
    done = set()
    if os.path.exists("/tmp/auto/log.jsonl"):
        done = {(x["file"], x["old"], x["new"]) for x in map(json.loads, open("/tmp/auto/log.jsonl"))}
    random.Random(int(sys.argv[2]) if len(sys.argv) > 2 else 1).shuffle(ms)
    n = 0
    for m in ms:
        if n >= int(sys.argv[1]): break
        if (m[0], m[2], m[3]) in done: continue
        n += 1
        h = run(*m)
        kind, name = decl_at(DST + "/" + h[0], h[1]) if h else ("", "")
        status = "survived" if not h else ("invalid" if kind == "def" else "killed")
        with open("/tmp/auto/log.jsonl", "a") as fh:
            fh.write(json.dumps(dict(file=m[0], line=m[1] + 1, old=m[2], new=m[3], status=status, where=h and h[0], decl=name)) + "\n")
        print(status, m, h, name, flush=True)
