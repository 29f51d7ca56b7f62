import Verif.Lemmas.PadsVisit
import Verif.Props.C70

/-! # C73: statements in which the macro has nothing to do are opaque

Adding such statements before the last statement of a block changes nothing else about the expansion.
-/

namespace AutoEnums

open Spec

/-- C73, for one run with the same fuel on both inputs: neither runs out of it. -/
theorem C73_run {env env' : Env} (ht : env'.typeAnalysis = env.typeAnalysis)
    {ss : List Node} (hh : ∀ ss n n', Pads ss n n' → env'.hash n' = env.hash n)
    (fuel h : Nat) (toks : List Tok) {input input' : Input} (hin : PadsInput ss input input')
    (hrun : ∀ ps, autoEnum env fuel h toks input ≠ .panicked ps)
    (hrun' : ∀ ps, autoEnum env' fuel h toks input' ≠ .panicked ps) :
    PadsOutput ss (autoEnum env fuel h toks input) (autoEnum env' fuel h toks input') := by
  have key : ∀ r : Cx × Node, (∀ ps, finish r ≠ .panicked ps) → r.1.panics = [] := by
    intro r hr
    unfold finish at hr
    split at hr
    · rename_i hp; exact List.isEmpty_iff.mp hp
    · exact absurd rfl (hr r.1.panics)
  have hfin : ∀ r r' : Cx × Node, r.1.panics = [] → Pad.Rel ss r r' → PadsOutput ss (finish r) (finish r') := by
    intro r r' hp hr
    unfold finish
    rw [hr.1, hp]
    simp only [List.isEmpty_nil, if_true]
    split
    · exact .code hr.2
    · exact .errors
  have hrec := Pad.idle_rel ht hh fuel
  have hq := Pad.idle_inert env' fuel
  unfold autoEnum at hrun hrun' ⊢
  cases hcx : Cx.new h toks true [] [] with
  | error e => exact .errors
  | ok cx =>
    simp only [hcx] at hrun hrun'
    have hf := new_fresh hcx
    cases hin with
    | @stmt n n' hn =>
      have hp := key _ hrun
      have hp' := key _ hrun'
      simp only [expandInput]
      have h1 := expandParentStmt_stays (visit_good env fuel) (Fill.visit_from env (fun _ _ _ => true) fuel) cx n hf hp
      have h1' := expandParentStmt_stays (visit_good env' fuel) (Fill.visit_from env' (fun _ _ _ => true) fuel) cx n' hf hp'
      have h2 := Pad.expandParentStmt_rel ht hrec hq cx hn
      dsimp only at h1 h1'
      rw [h1, h1'] at h2
      exact hfin _ _ hp h2
    | @expr n n' hn =>
      have hp := key _ hrun
      have hp' := key _ hrun'
      simp only [expandInput]
      have h1 := expandParentExpr_stays (env := env) (Fill.visit_from env (fun _ _ _ => true) fuel) cx n false hf hp
      have h1' := expandParentExpr_stays (env := env') (Fill.visit_from env' (fun _ _ _ => true) fuel) cx n' false hf hp'
      have h2 := Pad.expandParentExpr_rel ht hrec cx hn false
      dsimp only at h1 h1'
      rw [h1, h1'] at h2
      exact hfin _ _ hp h2

/-- C73: let the second input be the first one with the statements `ss` added in its blocks (none at the
end of a block).  Then both are rejected with the same errors, or the second expansion is the first one with the
same statements added in its blocks, in the same order.  (The hash of a piece of code is taken to be the same
with the statements.) -/
theorem C73 {env env' : Env} (ht : env'.typeAnalysis = env.typeAnalysis)
    {ss : List Node} (hh : ∀ ss n n', Pads ss n n' → env'.hash n' = env.hash n)
    (h : Nat) (toks : List Tok) {input input' : Input} (hin : PadsInput ss input input')
    (hvalid : ∀ n, input = .stmt n ∨ input = .expr n → elseOk n = true)
    (hvalid' : ∀ n, input' = .stmt n ∨ input' = .expr n → elseOk n = true) :
    ∃ F, ∀ f, F ≤ f → PadsOutput ss (autoEnum env f h toks input) (autoEnum env' f h toks input') := by
  obtain ⟨F, hF⟩ := C19 env h toks input hvalid
  obtain ⟨F', hF'⟩ := C19 env' h toks input' hvalid'
  refine ⟨max F F', fun f hf => C73_run ht hh f h toks hin ?_ ?_⟩
  · intro ps he
    rcases hF with ⟨out, ho⟩ | ⟨es, ho⟩ <;> (rw [ho f (by omega)] at he; cases he)
  · intro ps he
    rcases hF' with ⟨out, ho⟩ | ⟨es, ho⟩ <;> (rw [ho f (by omega)] at he; cases he)

/-- Hence the statements have no influence on whether the code is accepted, nor on the errors reported. -/
theorem C73_errors {env env' : Env} (ht : env'.typeAnalysis = env.typeAnalysis)
    {ss : List Node} (hh : ∀ ss n n', Pads ss n n' → env'.hash n' = env.hash n)
    (h : Nat) (toks : List Tok) {input input' : Input} (hin : PadsInput ss input input')
    (hvalid : ∀ n, input = .stmt n ∨ input = .expr n → elseOk n = true)
    (hvalid' : ∀ n, input' = .stmt n ∨ input' = .expr n → elseOk n = true) :
    ∃ F, ∀ f, F ≤ f → ∀ es, autoEnum env' f h toks input' = .errors es ↔ autoEnum env f h toks input = .errors es := by
  obtain ⟨F, hF⟩ := C73 ht hh h toks hin hvalid hvalid'
  refine ⟨F, fun f hf es => ?_⟩
  have := hF f hf
  generalize autoEnum env f h toks input = o at *
  generalize autoEnum env' f h toks input' = o' at *
  cases this <;> simp

/-! ## Examples -/

/-- `let y = g(|z| return z);` -/
def Ex.padLet : Node := .mk (.sLocal (.plain "y")) [] [.mk .eCall [] [Ex.var "g",
  .mk (.eClosure "|z|") [] [.mk .eReturn [] [Ex.var "z"]]]]

/-- `println!(..);` -/
def Ex.padPrint : Node := .mk (.sMacro (.ofIdents ["println"]) "(\"x\")") [] []

/-- `if k { (pre) a } else { (post) b }`. -/
def Ex.padIf (pre post : List Node) : Node := .mk .eIf [] [Ex.var "k",
  .mk .block [] (pre ++ [tailS (Ex.var "a")]), exprBlock (post ++ [tailS (Ex.var "b")])]

example : [Ex.padLet, Ex.padPrint, unitE, semiS (Ex.var "x"), semiS (.mk .eReturn [] [Ex.var "x"])].map idleStmt =
    [true, true, false, true, false] := by decide +kernel

theorem Ex.padIf_pads : Pads [Ex.padLet, Ex.padPrint, Ex.padPrint] (Ex.padIf [] [])
    (Ex.padIf [Ex.padLet, Ex.padPrint] [Ex.padPrint]) := by
  refine .mk rfl (.cons (ss := []) .same (.cons (ss := [Ex.padLet, Ex.padPrint]) (ts := [Ex.padPrint])
    (.mk rfl (.add (by decide +kernel) (.add (by decide +kernel) (.cons (ss := []) .same .nil))))
    (.cons (ss := [Ex.padPrint]) (.mk rfl (.add (by decide +kernel) (.cons (ss := []) .same .nil))) .nil)))

/-- The hypotheses are met and the outcome is code with one enum, in which the statements are found again. -/
example : ∃ out out', autoEnum { hash := fun _ => 7 } 20 5 Ex.iterator (.expr (Ex.padIf [] [])) = .code out ∧
    autoEnum { hash := fun _ => 7 } 20 5 Ex.iterator (.expr (Ex.padIf [Ex.padLet, Ex.padPrint] [Ex.padPrint])) =
      .code out' ∧ Pads [Ex.padLet, Ex.padPrint, Ex.padPrint] out out' ∧ (enums out').length = 1 := by
  obtain ⟨out, h1, -⟩ := Ex.of_check (o := autoEnum { hash := fun _ => 7 } 20 5 Ex.iterator (.expr (Ex.padIf [] [])))
    (p := fun _ => true) (by decide +kernel)
  obtain ⟨out', h2, h3⟩ := Ex.of_check (o := autoEnum { hash := fun _ => 7 } 20 5 Ex.iterator
    (.expr (Ex.padIf [Ex.padLet, Ex.padPrint] [Ex.padPrint])))
    (p := fun out => (enums out).length == 1) (by decide +kernel)
  refine ⟨out, out', h1, h2, ?_, by simpa using h3⟩
  have := C73_run (env := { hash := fun _ => 7 }) (env' := { hash := fun _ => 7 }) rfl (fun _ _ _ _ => rfl) 20 5
    Ex.iterator (.expr Ex.padIf_pads) (by rw [h1]; intro ps he; cases he) (by rw [h2]; intro ps he; cases he)
  rw [h1, h2] at this
  cases this with
  | code h => exact h

/-- That the statements have nothing for the macro is needed: with the statement `#[auto_enum] 3;` in front, the same code is
rejected. -/
example : (match autoEnum { hash := fun _ => 7 } 40 5 Ex.iterator
    (.expr (Ex.padIf [semiS (.mk (.eLit "3") [⟨.ofIdents ["auto_enum"], .path⟩] [])] [])) with
    | .errors _ => true
    | _ => false) = true := by decide +kernel

/-- That they are not at the end of a block is needed: a block that ends with the item `fn g() {}` counts as
unreachable, so only one branch is left and the code is rejected. -/
example : (match autoEnum { hash := fun _ => 7 } 40 5 Ex.iterator
    (.expr (.mk .eIf [] [Ex.var "k", .mk .block [] [tailS (Ex.var "a"), .mk (.sItem (.user "fn g() {}")) [] []],
      exprBlock [tailS (Ex.var "b")]])) with
    | .errors _ => true
    | _ => false) = true := by decide +kernel

end AutoEnums
