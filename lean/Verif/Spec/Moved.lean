import Verif.Spec.Whole

/-! # Specification: inputs for which inferred traits are as good as named ones -/

namespace AutoEnums.Spec

/-- There are two `return`s of the body's own, disregarding those with `#[never]` and calls of `m`. -/
def returnsTwice (m : String) (body : Node) : Bool :=
  shaped body && decide (2 ≤ ourCount .ret m (exits false {} body))

/-- There are two `?` of the body's own, disregarding those with `#[never]` and calls of `m`. -/
def triesTwice (m : String) (body : Node) : Bool :=
  shaped body && decide (2 ≤ ourCount .try_ m (exits false {} body))

/-- The value of a `let` is no closure or one with two `return`s or two `?`; a function does not return
`impl Trait` (but for instance `Option<impl Trait>`) or has two `return`s. -/
def busy (m : String) : Node → Bool
  | .mk (.sLocal _) _ (.mk (.eClosure _) _ [b] :: _) => returnsTwice m b || triesTwice m b
  | .mk (.iFn _ (some (.mk (.implTrait _) _))) _ [b] => returnsTwice m b
  | _ => true

end AutoEnums.Spec
