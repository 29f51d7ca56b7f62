#!/usr/bin/env python3
"""Writes lean/Verif/ExpandSuite.lean: the recorded expansions of the crate's own tests against the model."""
import glob, os, re, sys
sys.path.insert(0, os.path.dirname(__file__))
from rust2lean import tokenize, CLOSE, s, lst

HEAD = '''import Verif.Derive.Emit
import Verif.Derive.Bounds

/-!
# The recorded expansions of `#[enum_derive]`, against the model

Written by `tools/expandsuite.py`.  `tests/expand/**/*.expanded.rs` are the expansions the crate's tests compare
with.  For each of them, the model has to give the same implementations in the same order, each with the same
methods: name, receiver, parameter names and the right-hand side of every arm; and the `Unpin` implementation and
`MustNotImplDrop` constant exactly if the recorded expansion has them.  For every implementation the generic parameters,
the predicates of the where clause and the associated types are compared as text without white space, and for every method
its generic parameters.  Types and attributes of the methods are not represented in the model and not compared.  These
are tests of the model, not proofs about it.
-/

namespace AutoEnums.Derive.ExpandSuite

set_option maxRecDepth 20000

def sameSet (a b : List Method) : Bool :=
  a.length == b.length && (a.all fun m => b.contains m) && b.all fun m => a.contains m

/-- The header of an implementation as text. -/
structure Header where
  trait : String
  params : List String
  preds : List String
  types : List String
  generics : List (String × List String)
deriving DecidableEq

def projText (p : Proj) : String :=
  "<" ++ String.join p.ty ++ "as" ++ p.trait ++ (if p.args.isEmpty then "" else "<" ++ ",".intercalate p.args ++ ">") ++
    ">::" ++ p.name

def boundText : Bound → String
  | .trait ty tr args eqs =>
    let l := args ++ eqs.map fun e => e.1 ++ "=" ++ projText e.2
    String.join ty ++ ":" ++ tr ++ (if l.isEmpty then "" else "<" ++ ",".intercalate l ++ ">")
  | .fn ty tr => String.join ty ++ ":" ++ tr ++ "(__T)->__U"
  | .static ty => String.join ty ++ ":'static"

def headersOf (d : Data) (i : Impl) : List Header :=
  (implParams d i).map fun ps => ⟨i.trait, ps, (bounds d i).map boundText,
    (assocTypes d i).map fun a => a.1 ++ "=" ++ projText a.2, i.generics⟩

def sameImpls : List (String × List Method) → List (String × List Method) → Bool
  | [], [] => true
  | a :: as, b :: bs => a.1 == b.1 && sameSet a.2 b.2 && sameImpls as bs
  | _, _ => false

/-- All features are enabled. -/
def agrees (args : List Tok) (ident : String) (v1 v2 : String) (impls : List (String × List Method)) (guard : Bool)
    (hs : List Header) : Bool :=
  let d : Data := { ident := ident, params := [⟨false, [v1]⟩, ⟨false, [v2]⟩], variants := [(v1, [v1]), (v2, [v2])] }
  match expand (fun _ => true) d args with
  | .ok o => o.derive.isEmpty && o.guard == guard && sameImpls (o.impls.map fun i => (i.trait, methods d i)) impls
    && (o.impls ++ if o.guard then [unpinImpl] else []).flatMap (headersOf d) == hs
  | .error _ => false

/-- An enum with two type parameters and these field types is rejected. -/
def rejected (args : List Tok) (a b : List String) (e : DErr) : Bool :=
  match expand (fun _ => true) { ident := "Enum", params := [⟨false, ["A"]⟩, ⟨false, ["B"]⟩], variants := [("A", a), ("B", b)] } args with
  | .ok _ => false
  | .error e' => e' == e

/-! ## `tests/ui/enum_derive/args.rs` and `ty_impls.rs` -/

example : rejected [.ident "Clone", .comma, .other "=>"] ["A"] ["B"] .args = true := by decide +kernel
example : rejected [.ident "foo", .colon2, .ident "bar", .colon2, .other "!"] ["A"] ["B"] .args = true := by decide +kernel
example : rejected [.ident "Clone", .comma, .ident "Foo", .other ":"] ["A"] ["B"] .args = true := by decide +kernel
example : rejected [.ident "Clone", .ident "Foo"] ["A"] ["B"] .args = true := by decide +kernel
example : rejected [.ident "Transpose"] ["Foo", "<", "A", ">"] ["B"] (.derive "Transpose") = true := by decide +kernel

/-! ## `tests/expand` -/
'''

def strip(ts):
    """without generic arguments"""
    out, d = [], 0
    for t in ts:
        if t == "<": d += 1
        elif t == ">": d -= 1
        elif d == 0: out.append(t)
    return "".join(out)

class R:
    def __init__(self, t): self.t, self.i = t, 0
    def peek(self): return self.t[self.i][1] if self.i < len(self.t) else None
    def next(self): self.i += 1; return self.t[self.i - 1][1]
    def group(self):
        self.next(); d, a = 1, self.i
        while d:
            x = self.next()
            d += x in CLOSE; d -= x in CLOSE.values()
        return self.t[a:self.i - 1]
    def upto(self, *stops):
        """tokens up to a stop at depth 0, angle brackets count"""
        out, d = [], 0
        while True:
            x = self.peek()
            if d == 0 and x in stops: return out
            d += x in ("<", "(", "["); d -= x in (">", ")", "]")
            out.append(x); self.next()
    def attrs(self):
        while self.peek() == "#": self.next(); self.group()

def split(ts):
    out, cur, d = [], [], 0
    for k, t, l in ts:
        d += t in ("<", "(", "[", "{"); d -= t in (">", ")", "]", "}")
        if t == "," and d == 0: out.append(cur); cur = []
        else: cur.append((k, t, l))
    if cur: out.append(cur)
    return out

def atom(ts):
    x = "".join(t[1] for t in ts)
    m = re.fullmatch(r"::core::pin::Pin::new_unchecked\((\w+)\)", x)
    return ".pinned " + s(m[1]) if m else ".var " + s(x)

def rhs(ts):
    r = R(ts)
    if r.peek() == "{":
        return rhs(r.group())
    if r.peek() == "<":
        r.next()
        ty, t = [], []
        while r.peek() != "as": ty.append(r.next())
        r.next()
        d = 1
        while True:
            x = r.next()
            d += x == "<"; d -= x == ">"
            if d == 0: break
            t.append(x)
        assert r.next() == "::"
        m = r.next()
        return ".call %s %s %s %s" % (lst(s(x) for x in ty), s(strip(t)), s(m), lst(atom(a) for a in split(r.group())))
    x = "".join(t[1] for t in ts)
    m = re.fullmatch(r"::std::option::Option::Some\((\w+)\)", x)
    assert m, x
    return ".some (.var %s)" % s(m[1])

def params_of(r):
    """the names of the generic parameters, if any"""
    if r.peek() != "<": return []
    a, d = r.i, 0
    while True:
        x = r.next(); d += x == "<"; d -= x == ">"
        if d == 0: break
    return [p[0][1] for p in split(r.t[a + 1:r.i - 1])]

def text(ts):
    return re.sub(",>", ">", "".join(t[1] for t in ts))

def method(r, trait):
    r.next()
    name = r.next()
    generics = params_of(r)
    ps = split(r.group())
    me = "".join(t[1] for t in ps[0])
    recv = {"&self": ".ref", "&mutself": ".mut", "self": ".val", "self:::core::pin::Pin<&mutSelf>": ".pin"}[me]
    params = [[t[1] for t in p if t[1] != "mut"][0] for p in ps[1:]]
    while r.peek() != "{":
        if r.peek() in ("(", "["): r.group()
        else: r.next()
    b = R(r.group())
    if b.peek() == "unsafe":
        b.next(); b = R(b.group())
    assert b.next() == "match"
    sc = b.upto("{")
    assert "".join(sc) == ("self.get_unchecked_mut()" if recv == ".pin" else "self"), sc
    g, arms = R(b.group()), []
    assert b.peek() is None
    while g.peek() is not None:
        g.next(); assert g.next() == "::"
        v = g.next()
        assert [t[1] for t in g.group()] == ["x"]
        assert g.next() == "=>"
        a, d = g.i, 0
        if g.peek() == "{":
            body = g.group()
        else:
            while not (d == 0 and g.peek() == ","):
                x = g.next()
                d += x in ("<", "(", "["); d -= x in (">", ")", "]")
            body = g.t[a:g.i]
        if g.peek() == ",": g.next()
        arms.append("⟨%s, %s⟩" % (s(v), rhs(body)))
    return "⟨%s, %s, %s, %s, %s⟩" % (s(trait), s(name), recv, lst(map(s, params)), lst(arms)), (name, generics)

def impls(toks):
    out, guard, heads = [], [], []
    r = R(toks)
    while r.peek() is not None:
        if r.peek() == "impl" and r.i and r.t[r.i - 1][1] in ("]", "unsafe"):
            r.next()
            params = params_of(r)
            head = r.upto("for", "{")
            trait = strip(head)
            while r.peek() not in ("where", "{"):
                r.next()
            preds = []
            if r.peek() == "where":
                r.next()
                a = r.i
                while r.peek() != "{": r.next()
                preds = [text(p) for p in split(r.t[a:r.i])]
            g = R(r.group())
            if trait == "MustNotImplDrop": guard.append("drop"); continue
            if trait == "::core::marker::Unpin":
                guard.append("unpin"); heads.append((trait, params, preds, [], [])); continue
            ms, gens, types = [], [], []
            while g.peek() is not None:
                g.attrs()
                if g.peek() == "type":
                    g.next()
                    a = g.i
                    while g.next() != ";": pass
                    types.append(text(g.t[a:g.i - 1]))
                    continue
                if g.peek() == "unsafe": g.next()
                assert g.peek() == "fn", g.peek()
                m, gen = method(g, trait)
                ms.append(m)
                if gen[1]: gens.append(gen)
            heads.append((trait, params, preds, types, gens))
            out.append("(%s, %s)" % (s(trait), "[" + ",\n      ".join(ms) + "]"))
        else:
            r.next()
    assert guard in ([], ["unpin", "drop", "drop"]), guard
    return out, bool(guard), heads

def main():
    out = [HEAD]
    for f in sorted(glob.glob("/repo/tests/expand/**/*.expanded.rs", recursive=True)):
        src = open(f.replace(".expanded", "")).read()
        m = re.search(r"enum_derive\(([^)]*)\)\]\s*enum (\w+)<(\w+), (\w+)>", src)
        toks = lst(".colon2" if t == "::" else ".comma" if t == "," else ".ident " + s(t) for _, t, _ in tokenize(m[1]))
        src2 = open(f).read()
        i, g, hs = impls(tokenize(src2))
        out.append("/-- `%s` -/\nexample : agrees %s %s %s %s [\n    %s] %s [\n    %s] = true := by decide +kernel\n" % (
            f[6:], toks, s(m[2]), s(m[3]), s(m[4]), ",\n    ".join(i), "true" if g else "false",
            ",\n    ".join("⟨%s, %s, %s, %s, %s⟩" % (s(a), lst(map(s, b)), lst(map(s, c)), lst(map(s, d)),
                lst("(%s, %s)" % (s(m), lst(map(s, q))) for m, q in e)) for a, b, c, d, e in hs)))
    out.append("end AutoEnums.Derive.ExpandSuite\n")
    open(os.path.join(os.path.dirname(__file__), "../lean/Verif/ExpandSuite.lean"), "w").write("\n".join(out))

main()
