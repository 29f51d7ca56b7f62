#!/usr/bin/env python3
"""Turn /tmp/mut/log.jsonl (written by mutate.py) into seeded/LOG.jsonl."""
import json, os, re, sys
sys.path.insert(0, os.path.dirname(__file__))
from mutants import MUTANTS
TIGHTENED = {}
try:
    from tightened import TIGHTENED
except ImportError:
    pass
out = []
for l in open("/tmp/mut/log.jsonl"):
    x = json.loads(l)
    f, old, new = MUTANTS[x["n"]][:3]
    s = open("/verif/lean/" + f).read()
    i = s.find(old)
    d = re.findall(r"^(?:theorem|def|abbrev|inductive|structure) ([^\s:({\[]+)", s[:i + len(old)] if i >= 0 else "", re.M)
    fails = [m + ": " + n for m, ns in x["failed"].items() for n in ns]
    out.append(dict(definition=(d[-1] if d else "?") + " (" + f + ")", edit=x["edit"], old=old, new=new, claim=x["claim_broken"],
      failed=fails, property_theorems_failed=x["property_theorems_failed"],
      property_theorems_depending_on_failed=x["property_theorems_no_longer_checked"],
      survived=not x["killed"], tightened=TIGHTENED.get(x["n"], [])))
# systematic mutants (automutate.py); `equivalent`: the edit does not change what the definition computes on any input
EQUIVALENT = {"    | none => true": "nothing: an arm without a body is left as it is by wrapArm in any case",
  "    let sep := match lts.getLast? with": "nothing observable: the tokens are only compared with the variants' types, and with a lifetime parameter they differ at the first token",
  "    | none, none => true": "nothing: nested loops are only entered if the outer loop has a label, so the arm is only reached when the first disjunct is true",
  "    | [] => false": "nothing: the arm is only reached by a path with one segment more than the expected one, which is not empty",
  '    | .ident "marker" :: .eq :: _ => .error .argParse': "nothing: the arm below parses the path `marker` and fails in the same way at `=`",
  '    let item (p : Param × Bool) := p.1.toks ++ (if p.2 then [","] else [])': "nothing observable: the tokens are only compared with the variants' types, and with a lifetime parameter they differ at the first token",
  '      | some p => if p.2 || tys.isEmpty then [] else [","]': "nothing observable: the tokens are only compared with the variants' types, and with a lifetime parameter they differ at the first token"}
CLAIMS = {}
for names, claim in [
  ("parseArgsLoop parsePath parseSegs", "C22: which argument lists are accepted and what they mean"),
  ("Scope.check", "C09: a return or ? of an inner scope is left alone"),
  ("armBody wrapArm childExpr", "C05, C06: exactly the value-producing branches are wrapped"),
  ("breakMatches loopVisit", "C07: exactly the breaks that leave the loop are wrapped"),
  ("findNested findNestedL skipBlock", "C14: branches that contain #[nested] are not wrapped themselves"),
  ("fnCount fnCountHere", "C29, C11: the count equals the number of returns or ?s wrapped"),
  ("isUnreachable isUnreachableLast isUnreachableMacro", "C25, C30: which branches are skipped as diverging"),
  ("build", "C02, C03: when an enum is declared and what it derives"), ("hasError", "C17: errors are not lost"),
  ("isDummy", "C16: an attribute without arguments is the identity"), ("isMarker", "C12: which macro calls are markers"),
  ("joinChild", "C17, C48: the errors of an inner attribute are passed on"), ("makeChild", "C20: what an inner attribute starts with"),
  ("new", "C21: when a marker's name is rejected"), ("replaceBoxed", "C12: the argument of the marker is what is wrapped"),
  ("visitLast", "C16, C54: what is treated as the result"), ("collectImplTrait Cx.collectImplTrait collectBounds collectTy", "C46: the traits inferred"),
  ("Attr.isEmpty NAME NEVER anyAttr", "C13, C15, C20: which attributes are recognised"), ("pathEq", "C11, C30: which paths are recognised"),
  ("Cx.analysisExit", "C54: when there is nothing to wrap"), ("autoEnum finish", "C17: errors or code, never both"),
  ("dummyStep dummyWalk", "C16: what is left alone when nothing is wrapped"), ("retMode", "C08, C11: the mode chosen from the return type"),
  ("tryArms visitTry", "C10: the desugaring of ?"), ("visitReturn", "C08: which returns are wrapped"), ("visitMarker", "C12: which marker calls are replaced"),
  ("visitNested visitLocal visitArm", "C14: what is annotated #[nested] is treated as a result"), ("findRemoveAttrs", "C15: helper attributes do not survive"),
  ("getAlias existsAlias", "C33: which names are aliases"), ("traitDeps pushDeps", "C31: dependencies are added"), ("cfg", "C37: feature gating"),
  ("checkFields genericsTokens segTokens tokText", "C45, C52: when Transpose is rejected, which parameters are declared"),
  ("lookup derivable emit", "C34, C35: which implementation a trait selects")]:
    for x in names.split(): CLAIMS[x] = claim
for p in sorted(x for x in os.listdir("/verif/seeded") if x.startswith("auto")):
    for l in open("/verif/seeded/" + p):
        x = json.loads(l)
        if x["status"] == "invalid": continue
        src = open("/verif/lean/Verif/%s.lean" % x["file"]).read().split("\n")
        at = [i for i, t in enumerate(src) if t == x["old"]]
        d = "?"
        if at:
            for j in range(min(at, key=lambda i: abs(i + 1 - x["line"])), -1, -1):
                m = re.match(r"(?:@\[.*\] )?(?:def|structure|inductive|abbrev) ([^\s:({\[]+)", src[j])
                if m: d = m.group(1); break
        general = "C31-C38: which implementations are generated" if x["file"].startswith("Derive") else "C04, C20: what becomes of every node"
        edit = "line removed" if x["new"] is None else "line changed"
        out.append(dict(definition="%s (Verif/%s.lean, line %d)" % (d, x["file"], x["line"]), edit=edit, old=x["old"], new=x["new"],
          claim=(EQUIVALENT if x["status"] != "killed" else {}).get(x["old"], CLAIMS.get(d, general)), failed=[x["decl"]] if x["decl"] else [],
          survived=x["status"] != "killed", tightened=["C08_return_inferred"] if x["status"] != "killed" and "count < 2" in x["old"] else []))
# edits of single entries of the table of implementations (tablemutate.py)
for l in open("/verif/seeded/table.jsonl"):
    x = json.loads(l)
    if x["status"] == "invalid": continue
    dead = x["status"] == "killed"
    out.append(dict(definition="table, " + x["record"] + " (Verif/Derive/Table.lean)", edit=x["what"], old=x["old"], new=x["new"],
      claim="C31-C38, C67: what is implemented for a trait" if dead else
        "nothing that is claimed: the method is a provided one, which an implementation may leave to its default", failed=x["failed"],
      survived=not dead, tightened=[]))
with open("/verif/seeded/LOG.jsonl", "w") as fh:
    for x in out: fh.write(json.dumps(x) + "\n")
print(len(out), sum(x["survived"] for x in out))
