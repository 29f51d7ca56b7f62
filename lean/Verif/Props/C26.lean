import Verif.Lemmas.Scope
import Verif.Examples

/-! # C26: generated enums are in scope where they are used -/

namespace AutoEnums

open Spec

/-- C26: in a successful expansion every use of a variant that does not occur in the input is
inside a block that declares this variant.  More generally no use outside such a block is added
for a variant that has none. -/
theorem C26_scope (env : Env) (fuel h : Nat) (toks : List Tok) (input : Input) (inp out : Node)
    (hin : input = .stmt inp ∨ input = .expr inp)
    (hrun : autoEnum env fuel h toks input = .code out) (en vn : Ident)
    (h0 : freeUses en vn inp = 0) : freeUses en vn out = 0 := by
  obtain ⟨cx, n, cx', _, hn, ht, he, _⟩ := autoEnum_trace hrun
  have : n = inp := by
    rcases hin with rfl | rfl <;> rcases hn with hn | hn <;> cases hn <;> rfl
  subst this
  exact ht.scope he en vn (by simp) h0

theorem C26_new (env : Env) (fuel h : Nat) (toks : List Tok) (input : Input) (inp out : Node)
    (hin : input = .stmt inp ∨ input = .expr inp)
    (hrun : autoEnum env fuel h toks input = .code out) (en vn : Ident)
    (h0 : uses en vn inp = 0) : freeUses en vn out = 0 :=
  C26_scope env fuel h toks input inp out hin hrun en vn (by have := freeUses_le (en := en) (vn := vn) inp; omega)

/-- Two enums in different blocks, each used in its block. -/
example : uses "__Enum5" "__Variant1" Ex.letOut = 1 ∧ freeUses "__Enum5" "__Variant1" Ex.letOut = 0 ∧
    uses "__Enum7" "__Variant0" Ex.letOut = 1 ∧ freeUses "__Enum7" "__Variant0" Ex.letOut = 0 :=
  ⟨by decide +kernel, C26_new Ex.env 20 5 Ex.iterator _ Ex.letIn _ (.inl rfl) Ex.let_run _ _
    (by decide +kernel), by decide +kernel,
   C26_new Ex.env 20 5 Ex.iterator _ Ex.letIn _ (.inl rfl) Ex.let_run _ _ (by decide +kernel)⟩

/-- The claim is not vacuous: without the declaration the uses are free. -/
example : freeUses "__Enum5" "__Variant0" (Ex.v 5 0 (Ex.lit "1")) = 1 := by decide +kernel

end AutoEnums
