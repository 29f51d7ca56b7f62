#!/usr/bin/env python3
"""Writes lean/Verif/Suite.lean: the inputs of the crate's own tests, run through the model."""
import os, re, sys
sys.path.insert(0, os.path.dirname(__file__))
from rust2lean import *

T = "/repo/tests/"
HEAD = '''import Verif.Examples

/-!
# The crate's own tests, run through the model

Written by `tools/suite.py`, which parses the test files of the crate (`tools/rust2lean.py`).  These are tests of
the model, not proofs about it: every input below is the argument of an `#[auto_enum]` attribute in a test
of the crate, and the model has to give the outcome which that test expects.

* For the tests that compile (`passes`): the expansion succeeds, it leaves no `#[auto_enum]`, `#[nested]`,
  `#[never]` or marker macro behind (the compiler would reject them), and it contains one enum with two or more
  variants for every attribute that names traits.
* For the tests that fail to compile (`fails`): exactly the errors of the `.stderr` file, in that order.
-/

namespace AutoEnums.Suite

set_option maxRecDepth 20000

mutual
/-- Everything in the tree satisfies `p`; the tokens of macros are looked into. -/
def every (p : Kind → List Attr → Bool) : Node → Bool
  | .mk k as ks => p k as && everyL p ks
def everyL (p : Kind → List Attr → Bool) : List Node → Bool
  | [] => true
  | n :: ns => every p n && everyL p ns
end

mutual
/-- The number of variants and the traits of each generated enum. -/
def enums : Node → List (Nat × List Path)
  | .mk (.sItem (.genEnum _ _ vs ds)) _ _ => [(vs.length, ds)]
  | .mk _ _ ks => enumsL ks
def enumsL : List Node → List (Nat × List Path)
  | [] => []
  | n :: ns => enums n ++ enumsL ns
end

def bad (markers : List String) (k : Kind) (as : List Attr) : Bool :=
  (as.any fun a => ["auto_enum", "nested", "never", "rec"].any a.path.isIdent) ||
    match k with
    | .eMacro p _ | .sMacro p _ => markers.any p.isIdent
    | _ => false

/-- Accepted, nothing left behind, and `n` enums of two or more variants. -/
def passes (ta : Bool) (markers : List String) (n : Nat) (args : List Tok) (i : Input) : Bool :=
  match autoEnum { hash := fun _ => 7, typeAnalysis := ta } 60 5 args i with
  | .code out =>
    every (fun k as => !bad markers k as) out && (enums out).length == n && (enums out).all fun e => decide (2 ≤ e.1)
  | _ => false

/-- The number of variants of each enum. -/
def sizes (args : List Tok) (i : Input) : List Nat :=
  match autoEnum { hash := fun _ => 7 } 60 5 args i with
  | .code out => (enums out).map (·.1)
  | _ => []

/-- The traits of each enum, with type analysis. -/
def traits (args : List Tok) (i : Input) : List (List Path) :=
  match autoEnum { hash := fun _ => 7, typeAnalysis := true } 60 5 args i with
  | .code out => (enums out).map (·.2)
  | _ => []

/-- Rejected with exactly these errors. -/
def fails (args : List Tok) (i : Input) (es : List Err) : Bool :=
  match autoEnum { hash := fun _ => 7 } 60 5 args i with
  | .errors es' => decide (es' = es)
  | _ => false
'''
FAILS = {
    "unexpected_token_1": [".argParse"], "unexpected_token_2": [".argParse"],
    "marker_invalid_delimiter_1": [".argParse"], "marker_invalid_delimiter_2": [".argParse"],
    "marker_removed_delimiter": [".argParse"], "multiple_marker": [".dupMarkerArg"],
    "empty_marker": [".argParse"], "marker_multiple_ident": [".argParse"],
    "unexpected_token_in_never": [".neverNotPath"], "unexpected_token_in_nested": [".nestedNotPath"],
    "removed_rec": [".recRemoved"],
    "if_missing_else": [".missingElse"],
    "return1": [".twoOrMore .default true"], "return0": [".twoOrMore .default false"],
    "multi_error": [".twoOrMore .default true", ".twoOrMore .default true"],
    "a": ['.dupMarkerName "foo"'],
}

def main():
    out, used = [HEAD], {}
    for f, ta, ok in [("auto_enum.rs", "false", True), ("run-pass/auto_enum/unstable.rs", "false", True),
                      ("type_analysis.rs", "true", True), ("ui/auto_enum/args.rs", "false", False),
                      ("ui/auto_enum/attribute.rs", "false", False),
                      ("ui/auto_enum/compile-fail.rs", "false", False), ("ui/auto_enum/marker.rs", "false", False)]:
        src = open(T + f).read()
        rs = roots(file(tokenize(src)))
        out.append("/-! ## `tests/%s` -/\n" % f)
        stem = re.sub(r"\W", "_", f[:-3].split("/")[-1])
        for kind, name, form, term, line in rs:
            n = "%s_%s" % (stem, name)
            used[n] = used.get(n, 0) + 1
            if used[n] > 1 or name in ("let", "expr"): n += "_%d" % line
            a = toks(form[1]) if form[0] == "list" else "[]"
            out.append("/-- `tests/%s:%d` -/\ndef %s : Node :=\n  %s\n" % (f, line, n, term))
            inp = "(.%s %s)" % (kind, n)
            if ok or name not in FAILS:
                cnt = len(re.findall(r'\(\.ofIdents \["auto_enum"\]\), \.list', term)) + (1 if a != "[]" else 0)
                if ta == "true" and a == "[]" and cnt == 0: cnt = 1
                markers = ["foo", "marker_a", "bar"] + ([] if not ok else ["marker"])
                out.append("example : passes %s %s %d %s %s = true := by decide +kernel\n"
                           % (ta, lst(s(m) for m in markers), cnt, a, inp))
            else:
                out.append("example : fails %s %s %s = true := by decide +kernel\n" % (a, inp, lst(FAILS[name])))
            if name == "if_in_let_if_nested_nested":
                out.append("/-- \"1 enum with 9 variants is generated\" -/\n"
                           "example : sizes %s %s = [9] := by decide +kernel\n" % (a, inp))
            if f == "type_analysis.rs":
                t = "[[.ofIdents [\"Iterator\"]]]" if line < 80 else "[[.ofIdents [\"fmt\", \"Debug\"], .ofIdents [\"Iterator\"]]]"
                out.append("example : traits %s %s = %s := by decide +kernel\n" % (a, inp, t))
    out.append("end AutoEnums.Suite\n")
    open(os.path.join(os.path.dirname(__file__), "../lean/Verif/Suite.lean"), "w").write("\n".join(out))

main()
