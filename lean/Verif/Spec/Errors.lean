import Verif.Spec.Treat

/-!
# Specification vocabulary: inner attributes of an expression

Nothing in this file refers to the model of the code.
-/

namespace AutoEnums.Spec

/-- The inner attribute of the expression. -/
def bears (a : Attr) (n : Node) : Prop :=
  n.kind.hasAttrs = true ∧ ∃ l1 l2, n.rawAttrs = l1 ++ a :: l2 ∧ named "auto_enum" a = true ∧
    ∀ b ∈ l1, named "auto_enum" b = false

/-- The expression without its first `#[auto_enum ..]`. -/
def without (n : Node) : Node := .mk n.kind (dropFirst (named "auto_enum") n.rawAttrs) n.kids

/-- The arguments of an attribute on a `let`: `#[auto_enum]` has none. -/
def letArgs : Meta → Option (List Tok)
  | .path => some []
  | .list toks => some toks
  | .nameValue => none

end AutoEnums.Spec
