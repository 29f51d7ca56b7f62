import Verif.Spec.Runtime

/-!
# Specification: enums in enums (C83)
-/

namespace AutoEnums.Spec

open Derive

variable {α μ : Type}

/-- The type `ty` is the enum `d` with the implementations `is`: its methods do what the generated methods do. -/
def IsEnum (W : World α μ) (tags : Nat → Option String) (is : List Impl) (ty : List String) (d : Data) : Prop :=
  ∀ (a : Nat) (r : Req α), Borrowing is r → ∀ m st v,
    enumCall W d a r ⟨tags, m⟩ = some (st, v) → payloadCall W ty a r m = (st.mem, v)

/-- The enum `d` at the address `a` contains, directly or in enums in it, a value of the type `ty` at the address
`b`. -/
inductive Holds (W : World α μ) (tags : Nat → Option String) (is : List Impl) :
    Nat → Data → Nat → List String → Prop where
  | here {a : Nat} {d : Data} {v : String} {ty : List String} (hd : Distinct d) (hv : (v, ty) ∈ d.variants)
      (ha : tags a = some v) : Holds W tags is a d (W.field a v) ty
  | inner {a b : Nat} {d d' : Data} {v : String} {ty ty' : List String} (hd : Distinct d) (hv : (v, ty) ∈ d.variants)
      (ha : tags a = some v) (he : IsEnum W tags is ty d') (h : Holds W tags is (W.field a v) d' b ty') :
      Holds W tags is a d b ty'

/-- The same for the method `s` of `i` that consumes its receiver: for the type `ty` it does what the generated
method does. -/
def IsEnumVal (W : World α μ) (tags : Nat → Option String) (i : Impl) (s : Sig) (ty : List String) (d : Data) : Prop :=
  ∀ (x : Val α) (args : List (Val α)) m st v, args.length = s.params.length →
    invoke W (genForwarded d i s) x args ⟨tags, m⟩ = some (st, v) → W.call ty i.trait s.name (x :: args) m = (st.mem, v)

/-- The value `x` of the enum `d` contains, directly or in enums in it, the value `y` of the type `ty`. -/
inductive HoldsVal (W : World α μ) (tags : Nat → Option String) (i : Impl) (s : Sig) :
    Val α → Data → Val α → List String → Prop where
  | here {d : Data} {v : String} {x : Val α} {ty : List String} (hd : Distinct d) (hv : (v, ty) ∈ d.variants) :
      HoldsVal W tags i s (.variant v x) d x ty
  | inner {d d' : Data} {v : String} {x y : Val α} {ty ty' : List String} (hd : Distinct d) (hv : (v, ty) ∈ d.variants)
      (he : IsEnumVal W tags i s ty d') (h : HoldsVal W tags i s x d' y ty') :
      HoldsVal W tags i s (.variant v x) d y ty'

end AutoEnums.Spec
