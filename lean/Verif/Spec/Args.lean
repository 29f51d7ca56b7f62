import Verif.Syntax

/-!
# Specification vocabulary: the argument list of `#[auto_enum(..)]`

Nothing in this file refers to the model of the code.
-/

namespace AutoEnums.Spec

/-- The tokens of a path segment. -/
def printSeg : Seg → List Tok
  | ⟨s, none⟩ => [.ident s]
  | ⟨s, some a⟩ => [.ident s, .angle a]

/-- The tokens of path segments separated by `::`. -/
def printSegs : List Seg → List Tok
  | [] => []
  | [s] => printSeg s
  | s :: t :: ss => printSeg s ++ .colon2 :: printSegs (t :: ss)

/-- The tokens of a path. -/
def printPath (p : Path) : List Tok := (if p.lead then [.colon2] else []) ++ printSegs p.segs

/-- An entry of the argument list: a trait, or `marker = name`. -/
inductive Entry where
  | trait (p : Path)
  | marker (i : Ident)
deriving DecidableEq, Repr

/-- A path has at least one segment. -/
def Entry.Ok : Entry → Prop
  | .trait p => p.segs ≠ []
  | .marker _ => True

def printEntry : Entry → List Tok
  | .trait p => printPath p
  | .marker i => [.ident "marker", .eq, .ident i]

/-- Entries separated by commas; `trailing` adds a comma after the last one. -/
def printEntries (trailing : Bool) : List Entry → List Tok
  | [] => []
  | [e] => printEntry e ++ (if trailing then [.comma] else [])
  | e :: f :: es => printEntry e ++ .comma :: printEntries trailing (f :: es)

/-- The traits of an argument list, in order. -/
def traitsOf (es : List Entry) : List Path :=
  es.filterMap fun | .trait p => some p | .marker _ => none

/-- The marker names of an argument list, in order. -/
def markersOf (es : List Entry) : List Ident :=
  es.filterMap fun | .trait _ => none | .marker i => some i

/-- `toks` is an argument list with the given traits and at most one marker name. -/
def IsArgs (toks : List Tok) (traits : List Path) (marker : Option Ident) : Prop :=
  ∃ es trailing, (∀ e ∈ es, e.Ok) ∧ toks = printEntries trailing es ∧
    traits = traitsOf es ∧ markersOf es = marker.toList

end AutoEnums.Spec
