import Verif.Utils

/-!
# `context.rs:295-328`: arguments of `#[auto_enum(..)]`
-/

namespace AutoEnums

/-- `VisitLastMode` (`context.rs:33-44`). -/
inductive VisitLastMode where
  | default
  | never
deriving DecidableEq, Repr

/-- The errors the attribute can report.  Simplification: message text and spans are not
represented. -/
inductive Err where
  /-- `syn` failed to parse the arguments (`context.rs:88`). -/
  | argParse
  /-- `context.rs:314`. -/
  | dupMarkerArg
  /-- `context.rs:96-99`. -/
  | dupMarkerName (s : String)
  /-- `expr.rs:142`. -/
  | missingElse
  /-- `context.rs:266-272`; `one` tells "only one" from "no". -/
  | twoOrMore (last : VisitLastMode) (one : Bool)
  /-- `require_path_only` failed on `#[never]` (`visitor.rs:52`). -/
  | neverNotPath
  /-- `require_path_only` failed on `#[nested]` (`visitor.rs:135`). -/
  | nestedNotPath
  /-- `visitor.rs:58-64`. -/
  | recRemoved
  /-- `visitor.rs:152-153`: the tokens of a marker are not an expression. -/
  | markerParse
  /-- `visitor.rs:328`: `require_list` failed. -/
  | requireList
  /-- `visitor.rs:361`. -/
  | expectedList
  /-- `mod.rs:104`, `mod.rs:45-48`. -/
  | badTarget
  /-- `mod.rs:44`: the input is neither a statement nor an expression. -/
  | inputParse
  /-- `mod.rs:143-146`. -/
  | uninitLet
  /-- `mod.rs:209-212`. -/
  | emptyFn
deriving DecidableEq, Repr

/-- `syn::Path::parse` after an optional leading `::`: `ident (<..>)? (:: ident (<..>)?)*`.
Returns the segments and the remaining tokens. -/
def parseSegs : List Tok → Option (List Seg × List Tok)
  | .ident s :: .angle a :: .colon2 :: rest =>
    match parseSegs rest with
    | some (l, r) => some (⟨s, some a⟩ :: l, r)
    | none => none
  | .ident s :: .angle a :: rest => some ([⟨s, some a⟩], rest)
  | .ident s :: .colon2 :: rest =>
    match parseSegs rest with
    | some (l, r) => some (⟨s, none⟩ :: l, r)
    | none => none
  | .ident s :: rest => some ([⟨s, none⟩], rest)
  | _ => none

/-- `syn::Path::parse`. -/
def parsePath : List Tok → Option (Path × List Tok)
  | .colon2 :: rest => (parseSegs rest).map fun r => (⟨true, r.1⟩, r.2)
  | toks => (parseSegs toks).map fun r => (⟨false, r.1⟩, r.2)

/-- `Args` (`context.rs:299-302`). -/
structure Args where
  args : List Path
  marker : Option Ident
deriving DecidableEq, Repr

/-- The loop of `Args::parse` (`context.rs:308-324`).  The first argument bounds the number of
iterations; every iteration consumes a token, so the number of tokens is enough. -/
def parseArgsLoop : Nat → List Tok → List Path → Option Ident → Except Err Args
  | _, [], acc, m => .ok ⟨acc, m⟩
  | 0, _ :: _, _, _ => .error .argParse
  | n + 1, toks, acc, m =>
    match toks with
    | .ident "marker" :: .eq :: .ident i :: rest =>
      if m.isSome then .error .dupMarkerArg
      else match rest with
        | [] => .ok ⟨acc, some i⟩
        | .comma :: rest => parseArgsLoop n rest acc (some i)
        | _ => .error .argParse
    | .ident "marker" :: .eq :: _ => .error .argParse
    | toks =>
      match parsePath toks with
      | none => .error .argParse
      | some (p, []) => .ok ⟨acc ++ [p], m⟩
      | some (p, .comma :: rest) => parseArgsLoop n rest (acc ++ [p]) m
      | some _ => .error .argParse

/-- `Args::parse` (`context.rs:304-328`). -/
def parseArgs (toks : List Tok) : Except Err Args := parseArgsLoop toks.length toks [] none

end AutoEnums
