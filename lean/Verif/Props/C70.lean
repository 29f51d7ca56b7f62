import Verif.Lemmas.FillFuel
import Verif.Props.C69

/-! # C70: operands are opaque

What the macro does with a piece of code does not depend on the expressions in it that are neither branches,
blocks, jumps nor macro calls.
-/

namespace AutoEnums

open Spec

/-- C70, for one run: replace the literals of the input by operands, at most `d` deep.  A run on the input
that does not run out of fuel gives, with `d` more fuel, the outcome on the code with the replacements: the
same errors, or the same code with the same replacements. -/
theorem C70_run {σ : String → Node} (hσ : ∀ s, operand (σ s) = true) {d : Nat} (hd : ∀ s, depth (σ s) ≤ d)
    {env env' : Env} (ht : env'.typeAnalysis = env.typeAnalysis) (hh : ∀ n, env'.hash (fill σ n) = env.hash n)
    (fuel h : Nat) (toks : List Tok) (input : Input) (hrun : ∀ ps, autoEnum env fuel h toks input ≠ .panicked ps) :
    autoEnum env' (fuel + d) h toks (fillInput σ input) =
      Spec.Output.put (fill σ) (autoEnum env fuel h toks input) := by
  have key : ∀ r : Cx × Node, (∀ ps, finish r ≠ .panicked ps) → r.1.panics = [] := by
    intro r hr
    unfold finish at hr
    split at hr
    · rename_i hp; exact List.isEmpty_iff.mp hp
    · exact absurd rfl (hr r.1.panics)
  have hfin : ∀ r : Cx × Node, finish (Fill.pair σ r) = Spec.Output.put (fill σ) (finish r) := by
    intro r
    unfold finish Fill.pair
    dsimp only
    split
    · split <;> rfl
    · rfl
  have hrec := Fill.from_pair hσ hd ht hh fuel
  have hq := fun vk sc s c => Fill.from_kids hσ hd env' fuel vk sc s c
  unfold autoEnum at hrun ⊢
  cases hcx : Cx.new h toks true [] [] with
  | error e => rfl
  | ok cx =>
    simp only [hcx] at hrun
    have hf := new_fresh hcx
    cases input with
    | stmt n =>
      have hp := key _ hrun
      simp only [expandInput, fillInput]
      have h1 := expandParentStmt_stays (visit_good env fuel)
        (Fill.visit_from env (fun vk sc n => Fill.stillTo d vk sc (fill σ n)) fuel) cx n hf hp
      have h2 := Fill.expandParentStmt_pair hσ ht hrec hq cx n
      dsimp only at h1
      rw [h1] at h2
      have h3 := expandParentStmt_stays (Fill.visitFrom_good env' (Fill.stillTo d) fuel)
        (Fill.from_visit env' d fuel) cx (fill σ n) hf
      have h4 := h3 (by dsimp only; rw [h2]; exact hp)
      dsimp only at h4
      rw [h4, h2, hfin]
    | expr n =>
      have hp := key _ hrun
      simp only [expandInput, fillInput]
      have h1 := expandParentExpr_stays (env := env)
        (Fill.visit_from env (fun vk sc n => Fill.stillTo d vk sc (fill σ n)) fuel) cx n false hf hp
      have h2 := Fill.expandParentExpr_pair hσ ht hrec hq cx n false
      dsimp only at h1
      rw [h1] at h2
      have h3 := expandParentExpr_stays (env := env') (Fill.from_visit env' d fuel) cx (fill σ n) false hf
      have h4 := h3 (by dsimp only; rw [h2]; exact hp)
      dsimp only at h4
      rw [h4, h2, hfin]
    | invalid => rfl

/-- C70: replacing the literals of the input by arbitrary operands and expanding is the same as expanding and
then replacing them, and the input is rejected with the same errors. -/
theorem C70 {σ : String → Node} (hσ : ∀ s, operand (σ s) = true) {d : Nat} (hd : ∀ s, depth (σ s) ≤ d)
    {env env' : Env} (ht : env'.typeAnalysis = env.typeAnalysis) (hh : ∀ n, env'.hash (fill σ n) = env.hash n)
    (h : Nat) (toks : List Tok) (input : Input)
    (hvalid : ∀ n, input = .stmt n ∨ input = .expr n → elseOk n = true) :
    ∃ F, ∀ f, F ≤ f → autoEnum env' f h toks (fillInput σ input) =
      Spec.Output.put (fill σ) (autoEnum env f h toks input) := by
  obtain ⟨F, hF⟩ := C19 env h toks input hvalid
  have hne : ∀ f, F ≤ f → ∀ ps, autoEnum env f h toks input ≠ .panicked ps := by
    intro f hf ps he
    rcases hF with ⟨out, ho⟩ | ⟨es, ho⟩ <;> (rw [ho f hf] at he; cases he)
  refine ⟨F + d, fun f hf => ?_⟩
  obtain ⟨g, rfl⟩ : ∃ g, f = F + g + d := ⟨f - F - d, by omega⟩
  rw [C70_run hσ hd ht hh (F + g) h toks input (hne _ (by omega)),
    C19_enough env (f := F + g) (g := F + g + d) h toks input (by omega) (hne _ (by omega))]

/-- Hence the operands have no influence on whether the code is accepted, nor on the errors reported. -/
theorem C70_errors {σ : String → Node} (hσ : ∀ s, operand (σ s) = true) {d : Nat} (hd : ∀ s, depth (σ s) ≤ d)
    {env env' : Env} (ht : env'.typeAnalysis = env.typeAnalysis) (hh : ∀ n, env'.hash (fill σ n) = env.hash n)
    (h : Nat) (toks : List Tok) (input : Input)
    (hvalid : ∀ n, input = .stmt n ∨ input = .expr n → elseOk n = true) :
    ∃ F, ∀ f, F ≤ f → ∀ es, autoEnum env' f h toks (fillInput σ input) = .errors es ↔
      autoEnum env f h toks input = .errors es := by
  obtain ⟨F, hF⟩ := C70 hσ hd ht hh h toks input hvalid
  refine ⟨F, fun f hf es => ?_⟩
  rw [hF f hf]
  cases autoEnum env f h toks input <;> simp [Spec.Output.put]

/-! ## Examples -/

/-- `match a { 0 => 1, _ => 2 }`. -/
def Ex.holes : Node := .mk .eMatch [] [Ex.var "a", Ex.arm "0" (Ex.lit "1"), Ex.arm "_" (Ex.lit "2")]

/-- For `1`: `x.iter().map(|y| return y)`; for other literals: `core::iter::once(if c { x } else { 3 })`. -/
def Ex.holeFill (s : String) : Node :=
  if s = "1" then
    .mk (.eMethodCall "map") [] [.mk (.eMethodCall "iter") [] [Ex.var "x"],
      .mk (.eClosure "|y|") [] [.mk .eReturn [] [Ex.var "y"]]]
  else .mk .eCall [] [pathE (.ofIdents ["core", "iter", "once"]),
    .mk .eIf [] [Ex.var "c", .mk .block [] [tailS (Ex.var "x")], exprBlock [tailS (Ex.lit "3")]]]

example : ∀ s, operand (Ex.holeFill s) = true := by
  intro s
  unfold Ex.holeFill
  split <;> decide +kernel

example : ∀ s, depth (Ex.holeFill s) ≤ 6 := by
  intro s
  unfold Ex.holeFill
  split <;> decide +kernel

/-- The hypotheses are met and the outcome is code: with the branches in variants, and the `return` in the
closure and the `if` in the argument left alone. -/
example : ∃ out, autoEnum { hash := fun _ => 7 } 20 5 Ex.iterator (.expr Ex.holes) = .code out ∧
    autoEnum { hash := fun _ => 7 } (20 + 6) 5 Ex.iterator (.expr (fill Ex.holeFill Ex.holes)) =
      .code (fill Ex.holeFill out) ∧ (enums out).length = 1 := by
  obtain ⟨out, h1, h2⟩ := Ex.of_check (o := autoEnum { hash := fun _ => 7 } 20 5 Ex.iterator (.expr Ex.holes))
    (p := fun out => (enums out).length == 1) (by decide +kernel)
  refine ⟨out, h1, ?_, by simpa using h2⟩
  have := C70_run (σ := Ex.holeFill) (d := 6)
    (by intro s; unfold Ex.holeFill; split <;> decide +kernel)
    (by intro s; unfold Ex.holeFill; split <;> decide +kernel)
    (env := { hash := fun _ => 7 }) (env' := { hash := fun _ => 7 }) rfl (fun _ => rfl) 20 5 Ex.iterator
    (.expr Ex.holes) (by rw [h1]; intro ps he; cases he)
  rw [h1] at this
  exact this

/-- That replacements are operands is needed: `match a { 0 => 1, _ => 2 }` is accepted, and with `return` for `1`
the branch is skipped and the rest is rejected. -/
example : (match autoEnum { hash := fun _ => 7 } 40 5 Ex.iterator
    (.expr (fill (fun s => if s = "1" then .mk .eReturn [] [] else Ex.lit s) Ex.holes)) with
    | .errors _ => true
    | _ => false) = true := by decide +kernel

end AutoEnums
