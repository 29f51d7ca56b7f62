import Verif.Derive.Expand

/-!
# Specification vocabulary: generic parameters and field types as token lists

Facts about Rust's grammar only.
-/

namespace AutoEnums.Spec

open Derive (Param Data)

/-- Nesting depth after a token; `none` for a comma outside brackets and for an unmatched closing
bracket. -/
def nest (d : Nat) (t : String) : Option Nat :=
  if t ∈ ["<", "(", "[", "{"] then some (d + 1)
  else if t ∈ [">", ")", "]", "}"] then (match d with | 0 => none | d + 1 => some d)
  else if t = "," ∧ d = 0 then none
  else some d

/-- Nesting depth after a token list. -/
def nestAll : Nat → List String → Option Nat
  | d, [] => some d
  | d, t :: ts => (nest d t).bind (nestAll · ts)

/-- A non-empty token list with balanced brackets and no comma outside them. -/
def OneItem (l : List String) : Prop := l ≠ [] ∧ nestAll 0 l = some 0

instance (l : List String) : Decidable (OneItem l) := inferInstanceAs (Decidable (_ ∧ _))

/-- Necessary conditions for a token list to be a type: it does not begin like a lifetime, `const`
parameter or attribute, and its second token is neither `:` nor `=`. -/
structure TypeLike (l : List String) : Prop where
  item : OneItem l
  noLifetime : ∀ n r, l ≠ ("'" ++ n) :: r
  noConst : ∀ r, l ≠ "const" :: r
  noAttr : ∀ r, l ≠ "#" :: r
  noColon : ∀ n r, l ≠ n :: ":" :: r
  noEq : ∀ n r, l ≠ n :: "=" :: r

/-- The shape of a generic parameter: a lifetime, or a type parameter with or without bounds and
default, or a const parameter, possibly with attributes. -/
structure ParamLike (p : Param) : Prop where
  item : OneItem p.toks
  shape : if p.lifetime then ∃ n r, p.toks = ("'" ++ n) :: r
    else (∃ n, p.toks = [n]) ∨ (∃ n r, p.toks = n :: ":" :: r) ∨ (∃ n r, p.toks = n :: "=" :: r) ∨
      (∃ r, p.toks = "const" :: r) ∨ ∃ r, p.toks = "#" :: r

/-- A type parameter without bounds, default and attributes. -/
def PlainParam (p : Param) : Prop := p.lifetime = false ∧ ∃ n, p.toks = [n]

end AutoEnums.Spec
