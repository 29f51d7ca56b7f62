import Verif.Lemmas.Enums
import Verif.Examples

/-! # C02 and C46: generated enums and the traits they request -/

namespace AutoEnums

open Spec

/-- C02: every enum in the output of a successful expansion was already in the input or is
`enum __EnumH<__Variant0, ..> { __Variant0(__Variant0), .. }` with at least two variants, one type
parameter per variant, and a derive request listing the traits of an `auto_enum` attribute followed
by the inferred ones (none without `type_analysis`). -/
theorem C02_generated_enums (env : Env) (fuel h : Nat) (toks : List Tok) (input : Input)
    (n out : Node) (hin : input = .stmt n ∨ input = .expr n)
    (hrun : autoEnum env fuel h toks input = .code out) :
    ∀ e ∈ enums out, e ∈ enums n ∨ WellFormed e ∧ ∃ args ts, e.derives = args ++ ts ∧
      Requested toks n args ∧ Inferred env.typeAnalysis n args ts := by
  obtain ⟨cx, m, cx', hnew, hm, ht, he, _⟩ := autoEnum_trace hrun
  have : m = n := by
    rcases hin with rfl | rfl <;> rcases hm with hm | hm <;> first | cases hm; rfl | cases hm
  subst this
  exact (ht.enums he (src_new hnew (.inl rfl)) (ok_self _)).2.2

/-- C46: the traits collected from a type annotation are exactly the supported traits named by its
`impl Trait` types, in order, minus those that already are arguments. -/
theorem C46_collected (cx : Cx) (ty : Ty) :
    (cx.collectImplTrait ty).1.traits = cx.traits ++ inferred cx.args ty ∧
    ((cx.collectImplTrait ty).2 = true ↔ inferred cx.args ty ≠ []) := by
  simp [Cx.collectImplTrait, collectTy_eq]

/-- The hypotheses of C02 are met by a function with a `return` and a `match`. -/
example : autoEnum Ex.env 20 5 Ex.iterator (.stmt Ex.fnIn) = .code Ex.fnOut ∧
    enums Ex.fnIn = [] ∧ (enums Ex.fnOut).map (·.name) = ["__Enum5"] :=
  ⟨Ex.fn_run, by decide +kernel, by decide +kernel⟩

/-- With inner attributes: two enums. -/
example : autoEnum Ex.env 20 5 Ex.iterator (.stmt Ex.letIn) = .code Ex.letOut ∧
    (enums Ex.letOut).map (·.name) = ["__Enum5", "__Enum7"] :=
  ⟨Ex.let_run, by decide +kernel⟩

/-- `impl Iterator<Item = impl Clone> + 'a` yields `Clone`, `Iterator`; with `Iterator` an argument,
`Clone`. -/
example : inferred [] (.mk (.implTrait [some ⟨false, [⟨"Iterator", some "<..>"⟩]⟩, none])
      [.mk (.implTrait [some (.ofIdents ["Clone"])]) []]) =
    [.ofIdents ["Clone"], .ofIdents ["Iterator"]] ∧
  inferred [.ofIdents ["Iterator"]] (.mk (.implTrait [some ⟨false, [⟨"Iterator", some "<..>"⟩]⟩, none])
      [.mk (.implTrait [some (.ofIdents ["Clone"])]) []]) =
    [.ofIdents ["Clone"]] := by decide +kernel

end AutoEnums
