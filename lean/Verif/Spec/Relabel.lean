import Verif.Derive.Bounds
import Verif.Derive.Eval

/-! # Specification: an enum with other names -/

namespace AutoEnums.Spec

open Derive

variable {α μ : Type}

/-- The enum with another name and other names of the variants. -/
def relabel (name : String) (f : String → String) (d : Data) : Data :=
  { d with ident := name, variants := d.variants.map fun v => (f v.1, v.2) }

/-- The same memory if the variants have other names. -/
def relabelStore (f : String → String) (st : Store μ) : Store μ :=
  { st with tags := fun a => (st.tags a).map f }

/-- The value of the enum with the other names. -/
def relabelVal (f : String → String) : Val α → Val α
  | .variant v x => .variant (f v) x
  | x => x

/-- The value in `Some` or `Ok`, if any, is of the enum with the other names. -/
def relabelOk (f : String → String) : Val α → Val α
  | .some x => .some (relabelVal f x)
  | .ok x => .ok (relabelVal f x)
  | x => x

/-- The value in `Err`, if any, is of the enum with the other names. -/
def relabelErr (f : String → String) : Val α → Val α
  | .err x => .err (relabelVal f x)
  | x => x

/-- The payload of a renamed variant is where that of the variant was; all else is the same. -/
structure SameWorld (f : String → String) (W W' : World α μ) : Prop where
  field : ∀ a v, W'.field a (f v) = W.field a v
  tmp : W'.tmp = W.tmp
  call : W'.call = W.call

end AutoEnums.Spec
