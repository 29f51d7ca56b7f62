import Verif.Lemmas.Accepted
import Verif.Examples

/-! # Concrete successful expansions -/

namespace AutoEnums.Ex

open Spec

theorem iterator_args : IsArgs iterator [.ofIdents ["Iterator"]] none := (parseArgs_iff _ _ _).mp rfl

theorem accepted_stmt {n out : Node} (hx : isExprNode n = false)
    (h : autoEnum env 20 5 iterator (.stmt n) = .code out) :
    Accepted env [.ofIdents ["Iterator"]] "__Enum5" "marker" n out :=
  ⟨by simp, 20, 5, iterator, none, .stmt n, iterator_args, by decide +kernel, rfl, .inr ⟨rfl, hx⟩, h⟩

theorem accepted_expr {n out : Node} (hx : isExprNode n = true)
    (h : autoEnum env 20 5 iterator (.expr n) = .code out) :
    Accepted env [.ofIdents ["Iterator"]] "__Enum5" "marker" n out :=
  ⟨by simp, 20, 5, iterator, none, .expr n, iterator_args, by decide +kernel, rfl, .inl ⟨rfl, hx⟩, h⟩

theorem fn_accepted : Accepted env [.ofIdents ["Iterator"]] "__Enum5" "marker" fnIn fnOut :=
  accepted_stmt rfl fn_run

theorem fn_simple : Simple "__Enum5" "marker" fnIn :=
  ⟨by decide +kernel, by decide +kernel, by decide +kernel⟩

theorem let_accepted : Accepted env [.ofIdents ["Iterator"]] "__Enum5" "marker" letIn letOut :=
  accepted_stmt rfl let_run

end AutoEnums.Ex
