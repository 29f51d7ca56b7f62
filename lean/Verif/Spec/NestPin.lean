import Verif.Spec.NestTypes
import Verif.Spec.Derive
import Verif.Derive.Bounds

/-!
# Specification: enums with pinned methods in enums (C85)
-/

namespace AutoEnums.Spec

open Derive

variable {Ty : Type}

/-- The types that are enums have variants and are finite, all of them were given to `enum_derive` with a trait that
has a pinned method, and they are `Unpin` exactly if one of the implementations of `Unpin` in the output applies. -/
structure PinnedEnums (T : Typing Ty) (E : List String → Option Data) (fs : Features) : Prop where
  variants : ∀ ty d, E ty = some d → d.variants ≠ []
  finite : ∃ size : List String → Nat, ∀ ty d v ty', E ty = some d → (v, ty') ∈ d.variants → size ty' < size ty
  unpin : ∀ ty d, E ty = some d → ∃ toks o, expand fs d toks = .ok o ∧ (∃ i ∈ o.impls, usesPin i) ∧
    (T.impls (T.denote ty) "::core::marker::Unpin" [] ↔
      ∃ bs, ("::core::marker::Unpin", bs) ∈ headers d o ∧ T.Applies bs)

end AutoEnums.Spec
