import Verif.Examples
import Verif.Lemmas.Named

/-! # C78: type analysis only matters for traits that are not named -/

namespace AutoEnums

open Spec

/-- **C78.** If the arguments of the attribute name all supported traits of the `impl Trait` types in the type of the
annotated `let` or in the return type of the annotated function, and if the same holds for the attributes on `let`s
inside of the input, then the feature `type_analysis` has no effect: with it and without it the same code is produced
or the same errors are reported. In particular it has none if there are no `impl Trait` types. -/
theorem C78 (hash : Node → Nat) (fuel h : Nat) (toks : List Tok) (input : Input)
    (hin : ∀ n, input = .stmt n ∨ input = .expr n → wellNamed n = true ∧
      ∀ ty, annotationOf (n.kind, n.rawAttrs) = some ty → namesAll toks ty = true) :
    autoEnum { hash := hash, typeAnalysis := true } fuel h toks input =
      autoEnum { hash := hash, typeAnalysis := false } fuel h toks input := by
  have hs := Named.visit_same (env := { hash := hash, typeAnalysis := false })
    (env' := { hash := hash, typeAnalysis := true }) rfl fuel
  unfold autoEnum
  split
  · rfl
  · rename_i cx hcx
    have he : expandInput { hash := hash, typeAnalysis := true } fuel cx input =
        expandInput { hash := hash, typeAnalysis := false } fuel cx input := by
      cases input with
      | stmt n =>
        obtain ⟨hw, hp⟩ := hin n (.inl rfl)
        simp only [expandInput]
        rw [Named.expandParentStmt_same hs _ _ (new_fresh hcx)
          (fun ty ht => Named.namesAll_new hcx (hp ty ht)) hw]
      | expr n =>
        simp only [expandInput]
        rw [Named.expandParentExpr_same hs _ _ _ (new_fresh hcx) (hin n (.inr rfl)).1]
      | invalid => rfl
    rw [he]

/-! ## Examples -/

/-- `#[auto_enum(..)] let y: impl Iterator = if c { 2 } else { 3 };` -/
def Ex.innerLet (args : List Tok) : Node := .mk (.sLocal (.typed "y" Ex.implIter)) [⟨.ofIdents ["auto_enum"], .list args⟩]
  [.mk .eIf [] [Ex.var "c", .mk .block [] [tailS (Ex.lit "2")], exprBlock [tailS (Ex.lit "3")]]]

/-- `fn f() -> impl Iterator { #[auto_enum(..)] let y: impl Iterator = ..; match y { 0 => 1, _ => 2 } }` -/
def Ex.typedFn (args : List Tok) : Node := .mk (.iFn "f" (some Ex.implIter)) [] [.mk .block [] [Ex.innerLet args,
  tailS (.mk .eMatch [] [Ex.var "y", Ex.arm "0" (Ex.lit "1"), Ex.arm "_" (Ex.lit "2")])]]

/-- The hypotheses hold if `Iterator` is named twice, and two enums are generated. -/
example : (wellNamed (Ex.typedFn Ex.iterator) = true ∧
      ∀ ty, annotationOf ((Ex.typedFn Ex.iterator).kind, (Ex.typedFn Ex.iterator).rawAttrs) = some ty →
        namesAll Ex.iterator ty = true) ∧
    ∃ out, autoEnum Ex.taEnv 20 5 Ex.iterator (.stmt (Ex.typedFn Ex.iterator)) = .code out ∧
      decide (autoEnum Ex.env 20 5 Ex.iterator (.stmt (Ex.typedFn Ex.iterator)) = .code out ∧
        out ≠ Ex.typedFn Ex.iterator) = true :=
  ⟨⟨by decide +kernel, by rintro ty h; cases h; decide +kernel⟩, Ex.of_check (by decide +kernel)⟩

/-- Without the name on the inner attribute the condition fails, and so does the claim: with the feature the type is
dropped and the enum is generated, without it the inner attribute does nothing. -/
example : wellNamed (Ex.typedFn []) = false ∧
    autoEnum Ex.taEnv 20 5 Ex.iterator (.stmt (Ex.typedFn [])) ≠
      autoEnum Ex.env 20 5 Ex.iterator (.stmt (Ex.typedFn [])) :=
  ⟨by decide +kernel, by decide +kernel⟩

/-- Likewise for the outer attribute. -/
example : namesAll [] Ex.implIter = false ∧
    autoEnum Ex.taEnv 20 5 [] (.stmt (Ex.typedFn Ex.iterator)) ≠
      autoEnum Ex.env 20 5 [] (.stmt (Ex.typedFn Ex.iterator)) :=
  ⟨by decide +kernel, by decide +kernel⟩

end AutoEnums
