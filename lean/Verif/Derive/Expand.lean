import Verif.Args
import Verif.Derive.Table

/-!
# `enum_derive.rs`: the attribute `#[enum_derive(..)]`
-/

namespace AutoEnums.Derive

/-- The enabled cargo features. -/
abbrev Features := Feature → Bool

/-- A `cfg` attribute, if there is one, is satisfied. -/
def cfg (fs : Features) : Option Feature → Bool
  | none => true
  | some f => fs f

/-- The `cfg` attribute of a table entry is satisfied. -/
def Impl.enabled (fs : Features) (i : Impl) : Bool := cfg fs i.feature

/-- The code generated by `match_derive!` (`enum_derive.rs:32-41`): the first enabled entry one of
whose names is `s`. -/
def lookup (t : List Impl) (fs : Features) (s : String) : Option Impl :=
  t.find? fun i => i.enabled fs && i.names.any (· == s)

/-- `get_derive` (`enum_derive.rs:31-174`). -/
def getDerive (fs : Features) (s : String) : Option Impl := lookup table fs s

/-- The text of one token of a path. -/
def tokText : Tok → String
  | .ident s => s
  | .angle a => a
  | .colon2 => "::"
  | _ => ""

/-- `ToTokens` of the segments of a path. -/
def segTokens : List Seg → List Tok
  | [] => []
  | [s] => .ident s.ident :: s.args.toList.map .angle
  | s :: ss => .ident s.ident :: s.args.toList.map .angle ++ .colon2 :: segTokens ss

/-- `ToTokens` of a path. -/
def pathTokens (p : Path) : List Tok := (if p.lead then [.colon2] else []) ++ segTokens p.segs

/-- `to_trimmed_string` (`enum_derive.rs:182-184`): the tokens of the path without the spaces
between them.  Simplification: the text of generic arguments has no spaces to begin with. -/
def toTrimmedString (p : Path) : String := String.join ((pathTokens p).map tokText)

/-- The errors of `#[enum_derive]`.  Simplification: message text and spans are not represented. -/
inductive DErr where
  /-- The arguments could not be parsed (`enum_derive.rs:265`). -/
  | args
  /-- `transpose.rs:28` and `enum_derive.rs:287`: the derive of the trait `s` failed. -/
  | derive (s : String)
deriving DecidableEq, Repr

/-- The loop of `Args::parse` (`enum_derive.rs:187-195`).  The first argument bounds the number of
iterations; every iteration consumes a token, so the number of tokens is enough. -/
def parseLoop : Nat → List Tok → List (String × Path) → Except DErr (List (String × Path))
  | _, [], acc => .ok acc
  | 0, _ :: _, _ => .error .args
  | n + 1, toks, acc =>
    match parsePath toks with
    | none => .error .args
    | some (p, []) => .ok (acc ++ [(toTrimmedString p, p)])
    | some (p, .comma :: rest) => parseLoop n rest (acc ++ [(toTrimmedString p, p)])
    | some _ => .error .args

/-- `Args::parse` (`enum_derive.rs:180-199`). -/
def parse (toks : List Tok) : Except DErr (List (String × Path)) := parseLoop toks.length toks []

/-- The arms of the `match` in `get_trait_deps` (`enum_derive.rs:202-224`), in order: patterns,
`cfg`, result. -/
def depArms : List (List String × Option Feature × List String) := [
  (["Copy"], none, ["Clone"]),
  (["Eq", "PartialOrd"], none, ["PartialEq"]),
  (["Ord"], none, ["PartialOrd", "Eq", "PartialEq"]),
  (["DerefMut"], some .ops, ["Deref"]),
  (["IndexMut"], some .ops, ["Index"]),
  (["Fn"], some .fnTraits, ["FnMut", "FnOnce"]),
  (["FnMut"], some .fnTraits, ["FnOnce"]),
  (["DoubleEndedIterator", "ExactSizeIterator", "FusedIterator"], none, ["Iterator"]),
  (["TrustedLen"], some .trustedLen, ["Iterator"]),
  (["BufRead", "io::BufRead"], some .std, ["Read"]),
  (["Error"], some .std, ["Display", "Debug"]),
  (["rayon::IndexedParallelIterator"], some .rayon, ["rayon::ParallelIterator"])]

/-- `get_trait_deps` (`enum_derive.rs:201-225`). -/
def traitDeps (fs : Features) (s : String) : Option (List String) :=
  match depArms.find? fun a =>
    cfg fs a.2.1 && a.1.any (· == s) with
  | some a => some a.2.2
  | none => none

/-- The modules listed in `match_alias!` (`enum_derive.rs:243-255`), in order, with their `cfg`. -/
def aliasModules : List (String × Option Feature) := [
  ("core::fmt::debug", none), ("core::fmt::display", none), ("std::io::read", some .std),
  ("std::io::buf_read", some .std), ("std::io::seek", some .std), ("std::io::write", some .std)]

/-- `NAME` of a module. -/
def namesOf (path : String) : List String :=
  match table.find? fun i => i.path == path with
  | some i => i.names
  | none => []

/-- `get_alias` (`enum_derive.rs:228-258`). -/
def getAlias (fs : Features) (s : String) : Option String :=
  aliasModules.findSome? fun m =>
    if cfg fs m.2 then
      match namesOf m.1 with
      | n0 :: n1 :: _ => if s = n0 then some n1 else if s = n1 then some n0 else none
      | _ => none
    else none

/-- `exists_alias` (`enum_derive.rs:227-261`). -/
def existsAlias (fs : Features) (s : String) (v : List (String × Option Path)) : Bool :=
  match getAlias fs s with
  | none => false
  | some x => v.any fun e => e.1 == x

/-- The inner loop of the fold (`enum_derive.rs:268-272`). -/
def pushDeps (fs : Features) (args : List (String × Path)) (v : List (String × Option Path))
    (deps : List String) : List (String × Option Path) :=
  (deps.filter fun x => !args.any fun a => a.1 == x).foldl
    (fun v s => if existsAlias fs s v then v else v ++ [(s, none)]) v

/-- One step of the fold (`enum_derive.rs:266-278`). -/
def resolveStep (fs : Features) (args : List (String × Path)) (v : List (String × Option Path))
    (a : String × Path) : List (String × Option Path) :=
  let v := match traitDeps fs a.1 with
    | some deps => pushDeps fs args v deps
    | none => v
  if existsAlias fs a.1 v then v else v ++ [(a.1, some a.2)]

/-- The fold over the arguments (`enum_derive.rs:266-278`). -/
def resolve (fs : Features) (args : List (String × Path)) : List (String × Option Path) :=
  args.foldl (resolveStep fs args) []

/-- A generic parameter: its printed tokens and whether it is a lifetime. -/
structure Param where
  lifetime : Bool := false
  toks : List String
deriving DecidableEq, Repr

/-- `derive_utils::EnumData`: an enum each of whose variants has one unnamed field.
`variants` gives each variant's name and the tokens of its field type; `trailing` says whether a
comma follows the last generic parameter.  Simplification: attributes, visibility, where clause
and discriminants are not represented. -/
structure Data where
  ident : String
  params : List Param := []
  trailing : Bool := false
  variants : List (String × List String)
deriving DecidableEq, Repr

/-- Token sequences separated by commas. -/
def commaSep : List (List String) → List String
  | [] => []
  | [t] => t
  | t :: ts => t ++ "," :: commaSep ts

/-- `ToTokens` of `syn::Generics`: nothing without parameters, otherwise lifetimes first.  A comma
follows every parameter that had one in the source, and is inserted before a type or const
parameter if needed. -/
def genericsTokens (d : Data) : List String :=
  if d.params = [] then [] else
    let puncted := d.params.dropLast.map (·, true) ++ d.params.getLast?.toList.map (·, d.trailing)
    let lts := puncted.filter (·.1.lifetime)
    let tys := puncted.filter (!·.1.lifetime)
    let item (p : Param × Bool) := p.1.toks ++ (if p.2 then [","] else [])
    let sep := match lts.getLast? with
      | some p => if p.2 || tys.isEmpty then [] else [","]
      | none => []
    "<" :: lts.flatMap item ++ sep ++ tysTokens tys ++ [">"]
where
  /-- Type and const parameters; a missing comma is inserted between two of them. -/
  tysTokens : List (Param × Bool) → List String
    | [] => []
    | [p] => p.1.toks ++ (if p.2 then [","] else [])
    | p :: ps => p.1.toks ++ "," :: tysTokens ps

/-- `check_fields` (`transpose.rs:20-30`).  Simplification: the printed strings are compared as
token lists. -/
def checkFields (d : Data) : Bool :=
  genericsTokens d ==
    "<" :: commaSep (d.variants.map (·.2)) ++
      (if d.params.isEmpty || d.trailing then [","] else []) ++ [">"]

/-- Whether the `derive` function of an implementation succeeds: only the one of `Transpose` can
fail (`transpose.rs:11`). -/
def derivable (d : Data) (i : Impl) : Bool := i.path != "ty_impls::transpose" || checkFields d

/-- What `expand` adds to the enum: the paths in the `#[derive(..)]` attribute (which is absent if
there are none), the implementations, and whether the `Unpin` implementation and the
`MustNotImplDrop` constant are present. -/
structure Output where
  derive : List Path := []
  impls : List Impl := []
  guard : Bool := false
deriving DecidableEq, Repr

/-- The loop over the resolved arguments and the construction of the result
(`enum_derive.rs:280-347`). -/
def emit (fs : Features) (d : Data) : List (String × Option Path) → Except DErr Output
  | [] => .ok {}
  | (s, arg) :: rest =>
    match getDerive fs s, arg with
    | some i, _ =>
      if derivable d i then
        (emit fs d rest).map fun o => { o with impls := i :: o.impls, guard := i.pin || o.guard }
      else .error (.derive s)
    | none, some p => (emit fs d rest).map fun o => { o with derive := p :: o.derive }
    | none, none => emit fs d rest

/-- `expand` (`enum_derive.rs:263-347`). -/
def expand (fs : Features) (d : Data) (toks : List Tok) : Except DErr Output :=
  match parse toks with
  | .error e => .error e
  | .ok args => emit fs d (resolve fs args)

end AutoEnums.Derive
