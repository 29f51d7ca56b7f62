import Verif.Spec.Bounds

/-!
# Specification: types of enums in enums (C84)
-/

namespace AutoEnums.Spec

open Derive

variable {Ty : Type}

/-- The types inside a type, where `E` says which types are enums: those that are reached through variants and are
not enums themselves. -/
inductive Leaf (E : List String → Option Data) : List String → List String → Prop where
  | self {ty : List String} (h : E ty = none) : Leaf E ty ty
  | variant {ty ty' l : List String} {d : Data} {v : String} (h : E ty = some d) (hv : (v, ty') ∈ d.variants)
      (hl : Leaf E ty' l) : Leaf E ty l

/-- The types that are enums have variants and are finite, and all of them got the implementation `i` of the trait
`t`: it is what makes them implement the trait, and the associated types are those of the first variant, which is how
the implementations define them (`assocTypes`). -/
structure Enums (T : Typing Ty) (E : List String → Option Data) (i : Impl) (t : TraitDecl) : Prop where
  variants : ∀ ty d, E ty = some d → d.variants ≠ []
  finite : ∃ size : List String → Nat, ∀ ty d v ty', E ty = some d → (v, ty') ∈ d.variants → size ty' < size ty
  impls : ∀ ty d, E ty = some d → (T.impls (T.denote ty) t.path (T.args i.args) ↔ T.Applies (bounds d i))
  assoc : ∀ ty d, E ty = some d → T.impls (T.denote ty) t.path (T.args i.args) →
    ∀ v ty' rest, d.variants = (v, ty') :: rest → ∀ a ∈ t.assoc,
      T.assoc (T.denote ty) a.1 (T.args i.args) a.2 = T.assoc (T.denote ty') a.1 (T.args i.args) a.2

end AutoEnums.Spec
