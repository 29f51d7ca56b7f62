import Verif.Lemmas.Converge
import Verif.Lemmas.Mono
import Verif.Examples

/-! # C18 and C19: expansion terminates and does not panic -/

namespace AutoEnums

open Spec

theorem expandInput_conv {env : Env} {h : Nat} {toks : List Tok} {cx : Cx}
    (hcx : Cx.new h toks true [] [] = .ok cx) (input : Input) :
    ∃ F r, ∀ f, F ≤ f → expandInput env f cx input = r ∧
      (∀ n, input = .stmt n → r = some (expandParentStmt env (visitB env false f) cx n)) ∧
      (∀ n, input = .expr n → r = some (expandParentExpr env (visitB env false f) cx n false)) := by
  have hf := new_fresh hcx
  cases input with
  | stmt n =>
    obtain ⟨F, r, hF⟩ := expandParentStmt_conv (n := n) (fun m _ => visit_halts env m) cx hf
    refine ⟨F, some r, fun f hf => ⟨?_, ?_, by simp⟩⟩
    · simpa [expandInput, visitB_true] using hF f hf true
    · rintro _ ⟨⟩
      exact congrArg some (hF f hf false).symm
  | expr n =>
    obtain ⟨F, r, hF⟩ := expandParentExpr_conv (e := n) (fun m _ => visit_halts env m) cx false hf
    refine ⟨F, some r, fun f hf => ⟨?_, by simp, ?_⟩⟩
    · simpa [expandInput, visitB_true] using hF f hf true
    · rintro _ ⟨⟩
      exact congrArg some (hF f hf false).symm
  | invalid => exact ⟨0, none, fun f _ => ⟨rfl, by simp, by simp⟩⟩

/-- C19, for every tree: from some amount of fuel on the result of the macro no longer depends on
the fuel. -/
theorem C19_stable (env : Env) (h : Nat) (toks : List Tok) (input : Input) :
    ∃ F out, ∀ f, F ≤ f → autoEnum env f h toks input = out := by
  cases hcx : Cx.new h toks true [] [] with
  | error e => exact ⟨0, .errors [e], fun f _ => by simp [autoEnum, hcx]⟩
  | ok cx =>
    obtain ⟨F, r, hF⟩ := expandInput_conv (env := env) hcx input
    refine ⟨F, match r with
      | some r => finish r
      | none => .errors [.inputParse, .badTarget], fun f hf => ?_⟩
    simp only [autoEnum, hcx, (hF f hf).1]
    cases r <;> rfl

/-- C18: whatever the fuel, no assertion, `unwrap` or `unreachable!` fires on a syntactically valid
input; the only recorded panic is running out of fuel, which C19 rules out. -/
theorem C18_no_assertion (env : Env) (fuel h : Nat) (toks : List Tok) (input : Input)
    (ps : List Panic)
    (hvalid : ∀ n, input = .stmt n ∨ input = .expr n → elseOk n = true)
    (hrun : autoEnum env fuel h toks input = .panicked ps) : ∀ p ∈ ps, p = .fuel := by
  unfold autoEnum at hrun
  split at hrun
  · cases hrun
  · rename_i cx hcx
    have hf := new_fresh hcx
    obtain ⟨_, _, _, _, _, _, _, hp, _⟩ := new_args hcx
    split at hrun
    · rename_i r hr
      unfold finish at hrun
      split at hrun
      · split at hrun <;> cases hrun
      · injection hrun with hrun
        subst hrun
        have key : Calm (· = .fuel) cx r.1 := by
          cases input with
          | stmt n =>
            simp only [expandInput, Option.some.injEq] at hr
            subst hr
            exact expandParentStmt_calm (visit_calm env fuel) cx n hf (hvalid n (.inl rfl))
          | expr n =>
            simp only [expandInput, Option.some.injEq] at hr
            subst hr
            exact expandParentExpr_calm (visit_calm env fuel) cx n false hf (hvalid n (.inr rfl))
          | invalid => cases hr
        intro p hpm
        rcases key.panics p hpm with h1 | h1
        · simp [hp] at h1
        · exact h1
    · cases hrun

/-- C18 and C19 together: on every syntactically valid input the macro terminates, and it
terminates with code or with a list of errors, never with a panic. -/
theorem C19 (env : Env) (h : Nat) (toks : List Tok) (input : Input)
    (hvalid : ∀ n, input = .stmt n ∨ input = .expr n → elseOk n = true) :
    ∃ F, (∃ out, ∀ f, F ≤ f → autoEnum env f h toks input = .code out) ∨
      (∃ es, ∀ f, F ≤ f → autoEnum env f h toks input = .errors es) := by
  cases hcx : Cx.new h toks true [] [] with
  | error e => exact ⟨0, .inr ⟨[e], fun f _ => by simp [autoEnum, hcx]⟩⟩
  | ok cx =>
    obtain ⟨F, r, hF⟩ := expandInput_conv (env := env) hcx input
    have hf := new_fresh hcx
    obtain ⟨_, _, _, _, _, _, _, hp, _⟩ := new_args hcx
    have hval : ∀ f, F ≤ f → autoEnum env f h toks input = match (motive := _ → Output) r with
        | some r => finish r
        | none => .errors [.inputParse, .badTarget] := by
      intro f hf
      simp only [autoEnum, hcx, (hF f hf).1]
      cases r <;> rfl
    refine ⟨F, ?_⟩
    cases r with
    | none => exact .inr ⟨_, hval⟩
    | some r =>
      have hr : r.1.panics = [] := by
        have hcalm : Calm (fun _ => False) cx r.1 := by
          obtain ⟨h1, h2, h3⟩ := hF F (Nat.le_refl _)
          cases input with
          | stmt n =>
            have h2 := h2 n rfl
            injection h2 with h2
            rw [h2]
            exact expandParentStmt_calm (visitB_calm env F) cx n hf (hvalid n (.inl rfl))
          | expr n =>
            have h3 := h3 n rfl
            injection h3 with h3
            rw [h3]
            exact expandParentExpr_calm (visitB_calm env F) cx n false hf (hvalid n (.inr rfl))
          | invalid => simp [expandInput] at h1
        apply List.eq_nil_iff_forall_not_mem.mpr
        intro p hpm
        rcases hcalm.panics p hpm with h1 | h1
        · simp [hp] at h1
        · exact h1
      simp only [finish, hr, List.isEmpty_nil, if_true] at hval
      cases he : r.1.errs with
      | nil => simp only [he] at hval; exact .inl ⟨_, hval⟩
      | cons a l => simp only [he] at hval; exact .inr ⟨_, hval⟩

/-- C19: the bound on the recursion, which only exists in the model, cannot influence the result: a
run that does not run out of it gives the same code or the same errors with any larger bound. -/
theorem C19_enough (env : Env) {f g : Nat} (h : Nat) (toks : List Tok) (input : Input)
    (hfg : f ≤ g) (hrun : ∀ ps, autoEnum env f h toks input ≠ .panicked ps) :
    autoEnum env g h toks input = autoEnum env f h toks input := by
  have key : ∀ r : Cx × Node, (∀ ps, finish r ≠ .panicked ps) → r.1.panics = [] := by
    intro r hr
    unfold finish at hr
    split at hr
    · rename_i hp; exact List.isEmpty_iff.mp hp
    · exact absurd rfl (hr r.1.panics)
  unfold autoEnum at hrun ⊢
  split
  · rfl
  · rename_i cx hcx
    simp only [hcx] at hrun
    have hf := new_fresh hcx
    cases input with
    | stmt n =>
      have h1 : expandParentStmt env (visit env g) cx n = expandParentStmt env (visit env f) cx n :=
        expandParentStmt_stays (visit_good env f) (visit_stays env hfg) cx n hf (key _ hrun)
      simp only [expandInput, h1]
    | expr n =>
      have h1 : expandParentExpr env (visit env g) cx n false =
          expandParentExpr env (visit env f) cx n false :=
        expandParentExpr_stays (visit_stays env hfg) cx n false hf (key _ hrun)
      simp only [expandInput, h1]
    | invalid => rfl

/-- C19: there is one result.  Two runs that produce code produce the same code, and an input that
is accepted with one bound is not rejected with another. -/
theorem C19_one_result (env : Env) {f g : Nat} (h : Nat) (toks : List Tok) (input : Input)
    {out : Node} (hf : autoEnum env f h toks input = .code out) :
    (∀ out', autoEnum env g h toks input = .code out' → out' = out) ∧
      ∀ es, autoEnum env g h toks input ≠ .errors es := by
  have key : ∀ r, (∀ ps, r ≠ .panicked ps) → autoEnum env g h toks input = r → r = .code out := by
    intro r hr hg
    rcases Nat.le_total f g with hfg | hfg
    · rw [← hg, C19_enough env h toks input hfg (by simp [hf]), hf]
    · rw [← hg, ← hf]
      exact (C19_enough env h toks input hfg (by rw [hg]; exact hr)).symm
  constructor
  · intro out' hg
    simpa using key _ (by simp) hg
  · intro es hg
    have := key _ (by simp) hg
    cases this

/-- C18: with enough fuel there is no panic. -/
theorem C18 (env : Env) (h : Nat) (toks : List Tok) (input : Input)
    (hvalid : ∀ n, input = .stmt n ∨ input = .expr n → elseOk n = true) :
    ∃ F, ∀ f, F ≤ f → ∀ ps, autoEnum env f h toks input ≠ .panicked ps := by
  obtain ⟨F, ⟨out, hF⟩ | ⟨es, hF⟩⟩ := C19 env h toks input hvalid
  · exact ⟨F, fun f hf ps => by rw [hF f hf]; simp⟩
  · exact ⟨F, fun f hf ps => by rw [hF f hf]; simp⟩

/-- The inputs of the other examples are valid. -/
example : elseOk Ex.fnIn = true ∧ elseOk Ex.letIn = true := by decide +kernel

example : ∃ F, (∃ out, ∀ f, F ≤ f → autoEnum Ex.env f 5 Ex.iterator (.stmt Ex.letIn) = .code out) ∨
    (∃ es, ∀ f, F ≤ f → autoEnum Ex.env f 5 Ex.iterator (.stmt Ex.letIn) = .errors es) :=
  C19 _ _ _ _ (by
    intro n hn
    rcases hn with hn | hn <;> cases hn
    decide +kernel)

/-- The `let` statement is accepted with 20 steps, so every larger bound gives the same code. -/
example (g : Nat) (hg : 20 ≤ g) : autoEnum Ex.env g 5 Ex.iterator (.stmt Ex.letIn) =
    autoEnum Ex.env 20 5 Ex.iterator (.stmt Ex.letIn) :=
  C19_enough _ _ _ _ hg (by
    have h : (match autoEnum Ex.env 20 5 Ex.iterator (.stmt Ex.letIn) with
      | .code _ => true
      | _ => false) = true := by decide +kernel
    intro ps hp
    rw [hp] at h
    cases h)

/-- A literal after `else`, which Rust's grammar excludes, makes the macro panic. -/
example : autoEnum Ex.env 20 5 Ex.iterator
    (.expr (.mk .eIf [] [Ex.var "c", .mk .block [] [tailS (Ex.lit "1")], Ex.lit "2"])) =
      .panicked [.wrongIf] := by decide +kernel

/-- Too little fuel is reported, not hidden. -/
example : (match autoEnum Ex.env 2 5 Ex.iterator (.stmt Ex.letIn) with
    | .panicked ps => ps.all (· == .fuel)
    | _ => false) = true := by decide +kernel

end AutoEnums
