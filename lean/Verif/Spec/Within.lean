import Verif.Spec.Result

/-!
# Specification vocabulary: parts of a tree

Nothing in this file refers to the model of the code.
-/

namespace AutoEnums.Spec

/-- The first tree is a part of the second that is not inside of a macro call or nested item. -/
inductive Within : Node → Node → Prop where
  | here (n : Node) : Within n n
  | kid : hidesCode k = false → c ∈ ks → Within x c → Within x (.mk k as ks)

/-- The parts of the code in which wrapping takes place; the block that stands for the body of a function
is none. -/
def Inside (x n : Node) : Prop :=
  Within x (startOf n) ∧ (x = startOf n → ∀ name ret as ks, n ≠ .mk (.iFn name ret) as ks)

/-- `#[nested]` is used in `n` for the expression `e`: it is on `e`, or on the arm with the body `e`, or
on the `let` with the initialiser `e`. -/
inductive NestedAt : Node → Node → Prop where
  | expr : Within (.mk k as ks) n → isExpression k = true → marked "nested" as = true →
      NestedAt (.mk k as ks) n
  | arm : Within (.mk (.arm p) as (gs ++ [e])) n → marked "nested" as = true → NestedAt e n
  | init : Within (.mk (.sLocal p) as (e :: els)) n → marked "nested" as = true → NestedAt e n

end AutoEnums.Spec
