import Verif.Lemmas.Visible
import Verif.Props.C18
import Verif.Lemmas.Args
import Verif.Lemmas.Whole

/-! # C16: an attribute without arguments is the identity -/

namespace AutoEnums

open Spec

theorem dummy_id (env : Env) : ∀ f sc cx n, hasAttr NAME n = false →
    visitB env false f .dummy sc cx n = (cx, n) := by
  intro f
  induction f with
  | zero => intro sc cx n _; rfl
  | succ f ih =>
    intro sc cx n h
    have hw : ∀ sc, walk (visitB env false f .dummy sc) cx n = (cx, n) := fun sc =>
      walk_id fun ho c hc => ih sc cx c (hasAttr_kids h ho c hc)
    have hwe : ∀ (e : Node), hasAttr NAME e = false → ∀ b,
        vsVisitExpr env (visitB env false f) .dummy sc cx e b = (cx, e) := by
      intro e he b
      simp only [vsVisitExpr, hasAttr_none he]
      exact walk_id fun ho c hc => ih sc cx c (hasAttr_kids he ho c hc)
    simp only [visitB, step, dummyStep, attrs_any h, Bool.false_eq_true, if_false]
    split
    · split
      · rfl
      · exact hwe n h false
    · split
      · split
        · rfl
        · unfold vsVisitStmt
          split
          · have := hasAttr_kids h rfl _ (List.mem_cons_self ..)
            rw [hwe _ this]
          · rw [hasAttr_none h]
            exact hw sc
          · rfl
      · exact hw sc

/-- The input is something the attribute may be put on: an expression, an expression statement, a
`let` statement or a function. -/
def Spec.target : Input → Option Node
  | .expr n => some n
  | .stmt (.mk (.sExpr b) as [e]) => some (.mk (.sExpr b) as [e])
  | .stmt (.mk (.sLocal p) as ks) => some (.mk (.sLocal p) as ks)
  | .stmt (.mk (.iFn name ret) as [.mk .block asb ss]) =>
    some (.mk (.iFn name ret) as [.mk .block asb ss])
  | _ => none

/-- C16: with no trait among the arguments (they are empty or consist of a `marker` entry), no trait
inferred from a type and no inner `auto_enum` attribute the macro returns its input unchanged. -/
theorem C16 (env : Env) (h : Nat) (toks : List Tok) (input : Input) (n : Node) (m : Option String)
    (hargs : IsArgs toks [] m) (hin : target input = some n)
    (hinf : inferredFor env.typeAnalysis [] n = []) (hn : hasAttr NAME n = false) :
    ∃ F, ∀ f, F ≤ f → autoEnum env f h toks input = .code n := by
  obtain ⟨cx, hcx, ha, htr, hp, he⟩ : ∃ cx, Cx.new h toks true [] [] = .ok cx ∧ cx.args = [] ∧
      cx.traits = [] ∧ cx.panics = [] ∧ cx.errs = [] := by
    unfold Cx.new
    rw [(parseArgs_iff toks [] m).mpr hargs]
    cases m <;> exact ⟨_, rfl, rfl, rfl, rfl, rfl⟩
  have hfr := new_fresh hcx
  obtain ⟨F, r, hF⟩ := expandInput_conv (env := env) hcx input
  have hd : ∀ cx : Cx, cx.args = [] → cx.traits = [] → cx.isDummy = true := by
    intro cx h1 h2; simp [Cx.isDummy, h1, h2]
  have has : ∀ cx : Cx, cx.args = [] → cx.assert cx.args.isEmpty .dummyArgs = cx := by
    intro cx h1; simp [Cx.assert, h1]
  have hexpr : ∀ f e b, hasAttr NAME e = false →
      (expandParentExpr env (visitB env false f) cx e b).2 = e ∧
      (expandParentExpr env (visitB env false f) cx e b).1.panics = [] ∧
      (expandParentExpr env (visitB env false f) cx e b).1.errs = [] := by
    intro f e b hne
    unfold expandParentExpr
    dsimp only
    generalize hcx1 : (if b = true then { cx with lastMode := .never } else cx) = cx1
    have h1 : cx1.args = [] ∧ cx1.traits = [] ∧ cx1.panics = [] ∧ cx1.errs = [] := by
      subst hcx1; split <;> exact ⟨ha, htr, hp, he⟩
    rw [if_pos (hd cx1 h1.1 h1.2.1)]
    unfold dummyExpr
    rw [has cx1 h1.1, dummy_id env f _ cx1 e hne]
    exact ⟨rfl, h1.2.2⟩
  have hkids : ∀ (m : Node), hasAttr NAME m = false →
      ∀ f, dummyWalk (visitB env false f) cx m = (cx, m) := by
    intro m hm f
    unfold dummyWalk
    rw [has cx ha]
    exact walk_id fun ho c hc => dummy_id env f _ cx c (hasAttr_kids hm ho c hc)
  have key : ∃ r', r = some r' ∧ r'.2 = n ∧ r'.1.panics = [] ∧ r'.1.errs = [] := by
    obtain ⟨_, h2, h3⟩ := hF F (Nat.le_refl _)
    unfold target at hin
    split at hin
    · injection hin with hin
      subst hin
      exact ⟨_, h3 _ rfl, hexpr F _ false hn⟩
    · rename_i b as e _
      injection hin with hin
      subst hin
      refine ⟨_, h2 _ rfl, ?_⟩
      have hk := hasAttr_kids hn rfl _ (List.mem_cons_self ..)
      obtain ⟨g1, g2, g3⟩ := hexpr F e b hk
      simp only [expandParentStmt]
      exact ⟨by rw [g1], g2, g3⟩
    · rename_i p as ks _
      injection hin with hin
      subst hin
      refine ⟨_, h2 _ rfl, ?_⟩
      obtain ⟨l1, l2, _⟩ := localAnalysis_traits (env := env) hfr p as ks
      rw [ha] at l1 l2
      have hfa : ∃ ts, (localAnalysis env cx p).1 = { cx with traits := ts } := by
        unfold localAnalysis
        split
        · split <;> exact ⟨_, rfl⟩
        · exact ⟨_, rfl⟩
      have hrt : retype env.typeAnalysis [] (.mk (.sLocal p) as ks) = .mk (.sLocal p) as ks := by
        unfold retype
        split
        · rename_i heq
          cases heq
          rw [if_neg]
          rintro ⟨h1, h2⟩
          exact h2 (by simpa [inferredFor, annotationOf, h1] using hinf)
        · rfl
      obtain ⟨ts, hfa⟩ := hfa
      rw [hinf, hfa] at l1
      cases l1
      rw [hrt] at l2
      simp only [expandParentStmt, expandParentLocal]
      rw [l2, hfa, if_pos (hd { cx with traits := [] } ha rfl)]
      unfold dummyWalk
      rw [has { cx with traits := [] } ha,
        walk_id fun ho c hc => dummy_id env F _ _ c (hasAttr_kids hn ho c hc)]
      exact ⟨rfl, hp, he⟩
    · rename_i name ret as asb ss _
      injection hin with hin
      subst hin
      refine ⟨_, h2 _ rfl, ?_⟩
      simp only [expandParentStmt, expandParentFn]
      have hfa : ∃ m ts, fnAnalysis env cx ret (.mk .block asb ss) =
          { cx with mode := m, traits := ts } := by
        unfold fnAnalysis
        cases ret with
        | none => exact ⟨cx.mode, cx.traits, rfl⟩
        | some ty => dsimp only; split <;> exact ⟨_, _, rfl⟩
      obtain ⟨l1, _⟩ := fnAnalysis_traits (env := env) hfr name ret as [.mk .block asb ss]
        (.mk .block asb ss)
      obtain ⟨m, ts, hfa⟩ := hfa
      rw [ha, hinf, hfa] at l1
      cases l1
      rw [hfa, if_pos (hd { cx with mode := m, traits := [] } ha rfl)]
      unfold dummyWalk
      rw [has { cx with mode := m, traits := [] } ha, walk_id fun ho c hc => dummy_id env F _ _ c (hasAttr_kids hn ho c hc)]
      exact ⟨rfl, hp, he⟩
    · cases hin
  obtain ⟨r', rfl, h1, h2, h3⟩ := key
  refine ⟨F, fun f hf => ?_⟩
  simp only [autoEnum, hcx, (hF f hf).1, finish, h2, h3, List.isEmpty_nil, if_true, h1]

/-- Helper attributes and markers stay when there are no arguments. -/
def Ex.dummyIn : Node := .mk (.sLocal (.plain "x")) [] [.mk .eMatch [] [Ex.var "a",
  .mk (.arm "0") [Ex.helper NEVER] [Ex.lit "1"],
  Ex.arm "_" (.mk .eIf [Ex.helper NESTED] [Ex.var "c", .mk .block [] [tailS (Ex.marker (Ex.var "y"))]])]]

example : ∃ F, ∀ f, F ≤ f →
    autoEnum Ex.env f 5 [.ident "marker", .eq, .ident "m"] (.stmt Ex.dummyIn) = .code Ex.dummyIn :=
  C16 _ _ _ _ _ (some "m") ⟨[.marker "m"], false, by simp [Entry.Ok], rfl, rfl, rfl⟩ rfl rfl
    (by decide +kernel)

/-- The hypotheses are also met under type analysis by a function with an ordinary return type. -/
example : ∃ F, ∀ f, F ≤ f → autoEnum Ex.taEnv f 5 [] (.stmt (.mk (.iFn "f" (some (.mk (.other "u8") [])))
    [] [.mk .block [] [tailS (Ex.lit "1")]])) = .code (.mk (.iFn "f" (some (.mk (.other "u8") [])))
    [] [.mk .block [] [tailS (Ex.lit "1")]]) :=
  C16 _ _ _ _ _ none ((parseArgs_iff _ _ _).mp rfl) rfl (by decide +kernel) (by decide +kernel)

/-- An inner attribute with arguments is expanded although the outer one has none. -/
example : autoEnum Ex.env 20 5 [] (.stmt Ex.letIn) ≠ .code Ex.letIn ∧
    hasAttr NAME Ex.letIn = true := by decide +kernel

end AutoEnums
