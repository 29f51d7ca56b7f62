import Verif.Spec.Tidy

/-!
# Specification vocabulary: where an `auto_enum` attribute is looked at

Nothing in this file refers to the model of the code.
-/

namespace AutoEnums.Spec

/-- The nodes on which an inner `#[auto_enum]` has an effect: expressions and `let`s. -/
def looked : Kind → Bool
  | .sLocal _ => true
  | k => isExpression k

/-- The nodes on which the expansion of one inner `#[auto_enum]` does not look for another one. -/
def aside : Kind → Bool
  | .sLocal _ | .eClosure _ => true
  | _ => false

/-- At most one `#[auto_enum ..]` on `let`s and closures.  (A predicate on kind, attributes and the kinds of
the kids of a node.  The initialisers of `let`s and the contents of statements are expressions.) -/
structure Once (k : Kind) (as : List Attr) (kids : List Kind) : Prop where
  once : aside k = true → countNamed "auto_enum" as ≤ 1
  init : ∀ p, k = .sLocal p → (∃ a ∈ as, named "auto_enum" a = true) → ∀ k' ∈ kids, ExprKind k'
  stmt : StmtOk k kids

/-- No `#[auto_enum ..]` at a place where it is looked at. -/
structure Settled (k : Kind) (as : List Attr) (kids : List Kind) : Prop where
  none : looked k = true → ∀ a ∈ as, named "auto_enum" a = false
  stmt : StmtOk k kids

end AutoEnums.Spec
