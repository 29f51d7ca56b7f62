import Verif.Props.C68Exact

/-! # C69: on a `let` the attribute acts as on the initial value -/

namespace AutoEnums

open Spec

/-- The outcome, with the code put into a context. -/
def Spec.Output.put (g : Node → Node) : Output → Output
  | .code n => .code (g n)
  | o => o

theorem local_kept' {env : Env} {cx : Cx} {p : LetPat} {as : List Attr} {ks : List Node} (hf : Fresh cx)
    (hinf : inferredFor env.typeAnalysis cx.args (.mk (.sLocal p) as ks) = []) :
    localAnalysis env cx p = (cx, p) := by
  obtain ⟨l1, l2, l3, l4, l5⟩ := localAnalysis_traits (env := env) hf p as ks
  have hrt : retype env.typeAnalysis cx.args (.mk (.sLocal p) as ks) = .mk (.sLocal p) as ks := by
    unfold retype
    split
    · rename_i heq
      cases heq
      rw [if_neg]
      rintro ⟨h1, h2⟩
      exact h2 (by simpa [inferredFor, annotationOf, h1] using hinf)
    · rfl
  rw [hrt] at l2
  rw [hinf] at l1
  injection l2 with l2 _ _
  injection l2 with l2
  refine Prod.ext ?_ l2
  revert l1
  unfold localAnalysis
  split
  · split
    · dsimp only [Cx.collectImplTrait]
      intro l1
      have : cx.traits = [] := hf.traits
      obtain ⟨⟩ := cx
      simp_all
    · intro _; rfl
  · intro _; rfl

/-- C69: with a trait among the arguments, `#[auto_enum(..)] let p = e;` is expanded to `let p = e';`, where
`e'` is the expansion of `#[auto_enum(..)] e`, and rejected with the same errors.  The `else` of a `let` is
left alone.  Without arguments this holds for a `let` without `else`. -/
theorem C69 (env : Env) (fuel h : Nat) (toks : List Tok) (traits : List Path) (mk : Option Ident)
    (hargs : IsArgs toks traits mk) (p : LetPat) (as : List Attr) (e : Node) (els : List Node)
    (hinf : inferredFor env.typeAnalysis traits (.mk (.sLocal p) as (e :: els)) = [])
    (ht : traits ≠ [] ∨ els = []) :
    autoEnum env fuel h toks (.stmt (.mk (.sLocal p) as (e :: els))) =
      Spec.Output.put (fun e' => .mk (.sLocal p) as (e' :: els)) (autoEnum env fuel h toks (.expr e)) := by
  have hfin : ∀ (r : Cx × Node) (g : Node → Node), finish (r.1, g r.2) = Spec.Output.put g (finish r) := by
    intro r g
    unfold finish
    dsimp only
    split
    · split <;> rfl
    · rfl
  unfold autoEnum
  cases hnew : Cx.new h toks true [] [] with
  | error e => rfl
  | ok cx =>
    have hf := new_fresh hnew
    obtain ⟨m, p1, _⟩ := new_args hnew
    rw [(parseArgs_iff _ _ _).mpr hargs] at p1
    injection p1 with p1
    injection p1 with ha _
    simp only [expandInput]
    rw [← hfin]
    congr 1
    simp only [expandParentStmt, expandParentLocal, expandParentExpr, Bool.false_eq_true, if_false]
    rw [local_kept' (as := as) (ks := e :: els) hf (by rw [← ha]; exact hinf)]
    by_cases hd : cx.isDummy = true
    · simp only [hd, if_true]
      rcases ht with ht | rfl
      · exfalso
        rw [ha] at ht
        simp only [Cx.isDummy, Bool.and_eq_true, List.isEmpty_iff] at hd
        exact ht hd.1
      · rfl
    · simp only [Bool.not_eq_true] at hd
      simp only [hd, Bool.false_eq_true, if_false]

/-- In particular the `else` of a `let` keeps everything, also inner attributes and markers, which are
replaced in all other code. -/
theorem C69_else (env : Env) (fuel h : Nat) (toks : List Tok) (traits : List Path) (mk : Option Ident)
    (hargs : IsArgs toks traits mk) (p : LetPat) (as : List Attr) (e : Node) (els : List Node)
    (hinf : inferredFor env.typeAnalysis traits (.mk (.sLocal p) as (e :: els)) = []) (ht : traits ≠ [])
    (out : Node) (hrun : autoEnum env fuel h toks (.stmt (.mk (.sLocal p) as (e :: els))) = .code out) :
    ∃ e', out = .mk (.sLocal p) as (e' :: els) ∧ autoEnum env fuel h toks (.expr e) = .code e' := by
  rw [C69 env fuel h toks traits mk hargs p as e els hinf (.inl ht)] at hrun
  cases ho : autoEnum env fuel h toks (.expr e) with
  | code e' =>
    rw [ho] at hrun
    cases hrun
    exact ⟨e', rfl, rfl⟩
  | errors es => rw [ho] at hrun; cases hrun
  | panicked ps => rw [ho] at hrun; cases hrun

/-- The attribute on a statement without semicolon acts as on the expression. -/
theorem C69_stmt (env : Env) (fuel h : Nat) (toks : List Tok) (as : List Attr) (e : Node) :
    autoEnum env fuel h toks (.stmt (.mk (.sExpr false) as [e])) =
      Spec.Output.put (fun e' => .mk (.sExpr false) as [e']) (autoEnum env fuel h toks (.expr e)) := by
  have hfin : ∀ (r : Cx × Node) (g : Node → Node), finish (r.1, g r.2) = Spec.Output.put g (finish r) := by
    intro r g
    unfold finish
    dsimp only
    split
    · split <;> rfl
    · rfl
  unfold autoEnum
  cases hnew : Cx.new h toks true [] [] with
  | error e => rfl
  | ok cx =>
    simp only [expandInput]
    rw [← hfin]
    rfl

/-- `let Some(x) = match a { 0 => b, _ => c } else { let y = #[auto_enum(Iterator)] match b { .. }; return y };`. -/
def Ex.letElse : Node := .mk (.sLocal (.plain "Some(x)")) [] [
  .mk .eMatch [] [Ex.var "a", Ex.arm "0" (Ex.var "b"), Ex.arm "_" (Ex.var "c")],
  .mk .block [] [
    .mk (.sLocal (.plain "y")) [] [.mk .eMatch [⟨.ofIdents [NAME], .list Ex.iterator⟩]
      [Ex.var "b", Ex.arm "0" (Ex.lit "1"), Ex.arm "_" (Ex.marker (Ex.lit "2"))]]]]

/-- The hypotheses are met, and the inner attribute and the marker in the `else` are still there in the
output, of which only the first enum is generated. -/
example : ∃ out, autoEnum Ex.env 40 5 Ex.iterator (.stmt Ex.letElse) = .code out ∧ (enums out).length = 1 ∧
    out.kids.drop 1 = Ex.letElse.kids.drop 1 := by
  obtain ⟨out, h1, h2⟩ := Ex.of_check (o := autoEnum Ex.env 40 5 Ex.iterator (.stmt Ex.letElse))
    (p := fun out => (enums out).length == 1) (by decide +kernel)
  obtain ⟨e', rfl, _⟩ := C69_else Ex.env 40 5 _ _ _ ((parseArgs_iff _ _ _).mp rfl) _ _ _ _ (by rfl) (by simp) _ h1
  exact ⟨_, h1, by simpa using h2, rfl⟩

/-- The same errors are reported: here, that there are fewer than two branches. -/
example : autoEnum Ex.env 40 5 Ex.iterator (.stmt (.mk (.sLocal (.plain "x")) [] [Ex.var "b"])) =
    autoEnum Ex.env 40 5 Ex.iterator (.expr (Ex.var "b")) ∧
    (∃ es, autoEnum Ex.env 40 5 Ex.iterator (.expr (Ex.var "b")) = .errors es) := by
  have h : ∃ es, autoEnum Ex.env 40 5 Ex.iterator (.expr (Ex.var "b")) = .errors es := ⟨_, rfl⟩
  refine ⟨?_, h⟩
  obtain ⟨es, h⟩ := h
  rw [C69 Ex.env 40 5 _ _ _ ((parseArgs_iff _ _ _).mp rfl) _ _ _ _ (by rfl) (.inr rfl), h]
  rfl

end AutoEnums
