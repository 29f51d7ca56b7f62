import Verif.Lemmas.Inferred
import Verif.Lemmas.Break
import Verif.Props.C03

/-! # C54: inferred traits act like named ones -/

namespace AutoEnums

open Spec

/-- The expansion of a closure in a `let` statement is never given up silently. -/
theorem local_goes {env : Env} {fuel : Nat} {cx : Cx} {e : Node} (hroot : cx.root = true)
    (hm : cx.mode = .default) (hv : cx.variants = []) (hch : cx.hasChild = false)
    (ho : ordinaryExpr cx.ident cx.marker (cx.lastMode == .never) e = true) (hn : names e = 0)
    (h0 : ctors cx.ident e = 0) (hc : Clean (expandBuild env (visit env fuel) cx e).1) :
    Goes env cx e := by
  intro i as b he hl
  subst he
  rw [← Bool.not_eq_true]
  intro hx
  have hlm : (cx.lastMode == .never) = false := by
    cases h : cx.lastMode <;> simp [Cx.visitLast, hm, h] at hl ⊢
  rw [hlm] at ho
  simp only [ordinaryExpr, Bool.and_eq_true] at ho
  obtain ⟨f1, f2⟩ := Fine.of ho.2
  have hJ := closure_does hroot hl ho.1
  have hen : (closureJob cx.ident cx.marker b).en = cx.ident := by
    unfold closureJob; split <;> rfl
  rw [(expandBuild_core env _ cx _).1] at hc
  obtain ⟨⟨hb, hv2⟩, hb1, hb2⟩ := build_clean hc
  have heq : expandExpr env (visit env fuel) cx (.mk (.eClosure i) as [b]) =
      ((dummyExpr (visit env fuel) (childExpr (closureCx cx b) b).1 (childExpr (closureCx cx b) b).2).1,
        .mk (.eClosure i) as
        [(dummyExpr (visit env fuel) (childExpr (closureCx cx b) b).1
          (childExpr (closureCx cx b) b).2).2]) := by
    simp only [expandExpr, hl, if_true, expandTarget]
    rw [if_pos]
    · rfl
    · exact hx
  rw [heq] at hb hv2
  dsimp only at hb hv2
  have hst : (childExpr (closureCx cx b) b).1.hasChild = false :=
    Eq.trans (childExpr_still b (closureCx cx b)) hch
  have hx2 := hx
  unfold Cx.analysisExit at hx2
  have hve : (childExpr (closureCx cx b) b).1.variants = [] ∧
      (childExpr (closureCx cx b) b).1.args = [] := by
    simp only [Bool.and_eq_true] at hx2
    obtain ⟨_, hx2⟩ := hx2
    split at hx2
    · simp only [Bool.and_eq_true, List.isEmpty_iff] at hx2
      exact ⟨hx2.1.2, hx2.1.1⟩
    · cases hx2
  have hn' : names b = 0 := by
    simp only [names, weigh_mk, weighL_cons] at hn ⊢; omega
  have h0' : ctors cx.ident b = 0 := by
    simp only [ctors, weigh_mk, weighL_cons] at h0 ⊢; omega
  unfold dummyExpr at hb hv2
  rw [show (childExpr (closureCx cx b) b).1.assert (childExpr (closureCx cx b) b).1.args.isEmpty
    .dummyArgs = (childExpr (closureCx cx b) b).1 by simp [Cx.assert, hve.2]] at hb hv2
  have hinv : Inv (closureCx cx b) := by
    intro _ h
    simp [Cx.visitLast] at hl
    exact absurd h hl.1
  have hce : (childExpr (closureCx cx b) b).1.errs = [] :=
    errs_nil_of_prefix ((visit_good env fuel).tr .dummy {} _ _
      ((childExpr_tr (env := env) b (closureCx cx b)).inv hinv)).errs_mono hb.1
  have hid := childExpr_idle hJ f1 f2 hen.symm hv hve.1 hce hn' (by rw [hen]; exact h0')
  have hna : hasAttr NAME b = false := f2.free
  rw [hid] at hb hv2
  obtain ⟨ps, hps⟩ := dummy_stay env fuel {} (childExpr (closureCx cx b) b).1 b hna
  rw [hps] at hv2
  simp only [hve.1, hst] at hv2
  simp at hv2

/-- A function whose expansion is given up is left as it is; then there are fewer than two
expressions to wrap, unless there are markers or `#[nested]` annotations. -/
theorem fn_gives_up {env : Env} {fuel : Nat} {cx : Cx} {name : String} {ret : Option Ty}
    {as asb : List Attr} {ss : List Node} (hroot : cx.root = true) (hf : Fresh cx)
    (ho : ordinary cx.ident cx.marker (.mk (.iFn name ret) as [.mk .block asb ss]) = true)
    (hn : names (.mk (.iFn name ret) as [.mk .block asb ss]) = 0)
    (hat : hasAttr NAME (.mk (.iFn name ret) as [.mk .block asb ss]) = false)
    (h0 : ctors cx.ident (.mk (.iFn name ret) as [.mk .block asb ss]) = 0)
    (hd : (fnAnalysis env cx ret (.mk .block asb ss)).isDummy = false)
    (hx : (childLast (fnAnalysis env cx ret (.mk .block asb ss)) ss).1.analysisExit env = true)
    (hc : (expandParentFn env (visit env fuel) cx name ret as asb ss).1.errs = []) :
    (expandParentFn env (visit env fuel) cx name ret as asb ss).2 =
      .mk (.iFn name ret) as [.mk .block asb ss] ∧
    ((visible (.mk (.iFn name ret) as [.mk .block asb ss])).all (unmarked cx.marker) = true →
      ctors cx.ident (treatInput cx.ident cx.marker (.mk (.iFn name ret) as [.mk .block asb ss])) < 2) := by
  simp only [ordinary, Bool.and_eq_true] at ho
  have hne : ss.isEmpty = false := by
    have := ho.2
    simp only [ordinaryBody, Bool.and_eq_true, Bool.not_eq_true'] at this
    exact this.1.1.1.1.1
  have hJ := fnAnalysis_does (env := env) (ret := ret) (b := .mk .block asb ss) hroot hf
    (by simpa [shaped] using ho.1)
  have hk := fnAnalysis_kept (env := env) (cx := cx) (ret := ret) (b := .mk .block asb ss) rfl
  have hvar : (fnAnalysis env cx ret (.mk .block asb ss)).variants = [] := by
    rw [← hf.variants]
    unfold fnAnalysis
    split
    · rfl
    · dsimp only; split <;> rfl
  have hmode := fnAnalysis_mode (env := env) (cx := cx) (ret := ret) (b := .mk .block asb ss)
  have hcount := (fnCount_exits hroot false (.mk .block asb ss) {} (by simpa [shaped] using ho.1)
    rfl rfl).1
  simp only [expandParentFn, hd, hne, hx, Bool.false_eq_true, if_false, if_true] at hc ⊢
  have hinv : Inv (fnAnalysis env cx ret (.mk .block asb ss)) := by
    intro _
    rw [fnAnalysis_lastMode, hf.lastMode]
    simp
  have hjr : ∀ c, (fnAnalysis env cx ret (.mk .block asb ss)).mode = .ret c →
      (fnJob cx.ident cx.marker ret (.mk .block asb ss)).returns = true ∧
      (fnJob cx.ident cx.marker ret (.mk .block asb ss)).tries = false ∧
      c = ourCount .ret cx.marker (exits false {} (.mk .block asb ss)) := by
    intro c hm
    refine ⟨hJ.returns.mp ⟨c, hm⟩, ?_, ?_⟩
    · rw [← Bool.not_eq_true, ← hJ.tries, hm]; simp
    · rw [← hcount]
      rw [hmode] at hm
      cases ret with
      | none => rw [Option.map_none, Option.getD_none, hf.mode] at hm; cases hm
      | some ty =>
        simp only [Option.map_some, Option.getD_some, retMode_eq hf] at hm
        split at hm
        · injection hm with hm
          exact hm.symm
        · split at hm <;> cases hm
        · cases hm
  have hJe : (fnJob cx.ident cx.marker ret (.mk .block asb ss)).en = cx.ident := by
    rw [← hJ.ident]; exact hk.ident
  have hJm : (fnJob cx.ident cx.marker ret (.mk .block asb ss)).marker = cx.marker := by
    rw [← hJ.marker]; exact hk.marker
  simp only [treatInput]
  generalize fnJob cx.ident cx.marker ret (.mk .block asb ss) = J at *
  generalize fnAnalysis env cx ret (.mk .block asb ss) = cx1 at *
  have hx2 := hx
  simp only [Cx.analysisExit, Bool.and_eq_true] at hx2
  obtain ⟨_, hx2⟩ := hx2
  have hx3 : ∃ c, cx1.mode = .ret c ∧ (childLast cx1 ss).1.args = [] ∧
      (childLast cx1 ss).1.variants = [] ∧ c < 2 := by
    split at hx2
    · rename_i c hm
      rw [(childLast_same ss cx1).mode] at hm
      simp only [Bool.and_eq_true, List.isEmpty_iff, decide_eq_true_eq] at hx2
      exact ⟨c, hm, hx2.1.1, hx2.1.2, hx2.2⟩
    · cases hx2
  obtain ⟨c, hm, harg, hv, hlt⟩ := hx3
  obtain ⟨hr1, hr2, hr3⟩ := hjr c hm
  have hce : (childLast cx1 ss).1.errs = [] :=
    errs_nil_of_prefix (dummyWalk_tr (visit_good env fuel) _ _
      (((childLast_tr (env := env) (k := .block) rfl [] ss (fun m _ => childExpr_tr m) cx1 ss []
        fun _ h => h)).inv hinv)).errs_mono hc
  have hn' : names (.mk .block [] ss) = 0 := by
    simp only [names, weigh_mk, weighL_cons] at hn ⊢
    have : cnt NAME (Kind.block, []) = 0 := rfl
    omega
  have h0' : weighL (isCtor cx.ident) ss = 0 := by
    simp only [ctors, weigh_mk, weighL_cons] at h0; omega
  obtain ⟨hi, hp⟩ := childLast_idle hJ ho.2 (by rw [hJ.ident]) hvar hv hce hn' (by rw [hJe]; exact h0')
  constructor
  · rw [hi]
    unfold dummyWalk
    rw [show (childLast cx1 ss).1.assert (childLast cx1 ss).1.args.isEmpty .dummyArgs =
      (childLast cx1 ss).1 by simp [Cx.assert, harg]]
    obtain ⟨ps, h⟩ := walk_stay (f := visit env fuel .dummy {})
      (n := .mk (.iFn name ret) as [.mk .block asb ss]) (cx := (childLast cx1 ss).1)
      fun _ b hb cx2 => dummy_stay env fuel {} cx2 b (hasAttr_kids hat rfl b hb)
    rw [h]
  · intro hu
    have hu' : (visibleL ss).all (unmarked J.marker) = true := by
      rw [hJm]
      simp only [visible, visibleL, hidesCode_eq, Kind.isOpaque, Bool.false_eq_true, if_false,
        List.all_cons, List.append_nil, Bool.and_eq_true] at hu
      exact hu.2.2
    have := treatL_count (J := J) (w := {}) hr1 hr2 rfl rfl ss (fun _ => [])
      (bodyRole J ss.length) ho.1 hu'
    rw [hJe] at this hp
    rw [hp] at this
    simp only [ctors, weigh_mk, weighL_cons, weighL_nil, treatBody]
    rw [this, hJm]
    rw [hr3] at hlt
    simp only [exits] at hlt
    rw [if_neg (by simp [skips])] at hlt
    simpa [isCtor, Where.enter] using hlt

theorem hasAttr_free {s : String} {n : Node} (h : ∀ a ∈ allAttrs n, named s a = false) :
    hasAttr s n = false := by
  unfold hasAttr
  rw [List.any_eq_false]
  intro l hl
  simp only [Bool.not_eq_true, List.any_eq_false]
  intro a ha
  exact h a (mem_allAttrs.mpr ⟨l, visible_labels n l hl, ha⟩)

/-- C54: an attribute without trait arguments for which traits are inferred expands as if these had
been named: the output is the one of `C03_accepted` for the inferred traits.  The exception is a
function that is left as it is, in which there are fewer than two expressions to wrap.

Partial: that the function has fewer than two such expressions is false if some of them are given by
markers or `#[nested]` (`C54_counterexample`). -/
theorem C54_inferred_partial (env : Env) (fuel h : Nat) (toks : List Tok) (marker : Option Ident)
    (ha : IsArgs toks [] marker)
    (en : Ident) (hen : en = "__Enum" ++ toString h) (m : String) (hm : m = marker.getD "marker")
    (input : Input) (n out : Node)
    (hin : input = .expr n ∧ isExprNode n = true ∨ input = .stmt n ∧ isExprNode n = false)
    (hord : ordinary en m n = true) (hno : ∀ a ∈ allAttrs n, named "auto_enum" a = false)
    (hfresh : ctors en n = 0) (hinf : inferredFor env.typeAnalysis [] n ≠ [])
    (hrun : autoEnum env fuel h toks input = .code out) :
    (∃ n', Alike en n' (retype env.typeAnalysis [] (treatInput en m n)) ∧
      2 ≤ ctors en (treatInput en m n) ∧
      out = placeEnum (enumDecl en (ctors en (treatInput en m n))
        (inferredFor env.typeAnalysis [] n)) n') ∨
    (out = n ∧ ((visible n).all (unmarked m) = true → ctors en (treatInput en m n) < 2)) := by
  obtain ⟨cx, cx', hnew, hex, he, hp⟩ := autoEnum_code hrun
  by_cases hact : Active env cx n
  · left
    have := accepted_active env fuel h toks [] marker ha en hen m hm input n out
      (fun cx2 h2 => by rw [hnew] at h2; cases h2; exact hact) hin hord hno hfresh hrun
    simpa using this
  · right
    obtain ⟨_, p1, p2, p3, _, p4, p5, p6, p7, _⟩ := new_args hnew
    have hf := new_fresh hnew
    rw [(parseArgs_iff _ _ _).mpr ha] at p1
    injection p1 with p1
    injection p1 with hargs p1
    subst p1
    have e1 : cx.ident = en := by rw [p2, hen]; rfl
    have e2 : cx.marker = m := by rw [p3, hm]; rfl
    subst e1 e2
    have hnm := names_zero hno
    unfold ordinary at hord
    split at hord
    · simp [inferredFor, annotationOf] at hinf
    · rename_i p as e els
      obtain ⟨rfl, _⟩ : input = .stmt _ ∧ True := by
        rcases hin with ⟨_, h⟩ | ⟨h, _⟩
        · simp [isExprNode, Node.kind] at h
        · exact ⟨h, trivial⟩
      simp only [expandInput, expandParentStmt, expandParentLocal, Option.some.injEq] at hex
      obtain ⟨h1, h2, h3, h4, h5⟩ := localAnalysis_traits (env := env) hf p as (e :: els)
      have hk : Kept cx (localAnalysis env cx p).1 :=
        localAnalysis_kept (p1 := (localAnalysis env cx p).2) rfl
      obtain ⟨hs, _⟩ := localAnalysis_setup (env := env) cx p as (e :: els) hf
      simp only [Active] at hact
      generalize localAnalysis env cx p = r at *
      have hd : r.1.isDummy = false := by
        rw [← hargs] at h1
        simp [Cx.isDummy, h1, hinf]
      rw [if_neg (by rw [hd]; simp)] at hex
      have hl : (r.1.lastMode == .never) = false := by rw [h5, hf.lastMode]; rfl
      refine absurd ⟨hd, local_goes (fuel := fuel) (hk.root.trans p4) (h4.trans hf.mode)
        (hs.variants.trans hf.variants) (h3.trans p7) ?_ ?_ ?_ ?_⟩ hact
      · rw [hl, hk.ident, hk.marker]; exact hord
      · simp only [names, weigh_mk, weighL_cons] at hnm ⊢; omega
      · rw [hk.ident]
        simp only [ctors, weigh_mk, weighL_cons] at hfresh ⊢; omega
      · cases hex
        exact ⟨he, hp⟩
    · rename_i name ret as asb ss
      obtain ⟨rfl, _⟩ : input = .stmt _ ∧ True := by
        rcases hin with ⟨_, h⟩ | ⟨h, _⟩
        · simp [isExprNode, Node.kind] at h
        · exact ⟨h, trivial⟩
      simp only [expandInput, expandParentStmt, Option.some.injEq] at hex
      have ht := fnAnalysis_traits (env := env) hf name ret as [.mk .block asb ss] (.mk .block asb ss)
      rw [← hargs] at ht
      have hd : (fnAnalysis env cx ret (.mk .block asb ss)).isDummy = false := by
        simp [Cx.isDummy, ht.1, hinf]
      simp only [Active, hd, true_and, Bool.not_eq_false] at hact
      have := fn_gives_up (fuel := fuel) (name := name) (as := as) p4 hf
        (by unfold ordinary; exact hord) hnm (hasAttr_free hno) hfresh hd hact (by rw [hex]; exact he)
      rw [hex] at this
      exact this
    · simp only [Bool.and_eq_true] at hord
      cases n with
      | mk k as ks =>
      refine absurd ?_ hinf
      unfold inferredFor
      have : annotationOf (k, as) = none := by
        unfold annotationOf
        split <;> first | rfl | (rename_i heq; cases heq; simp [isExprNode, Node.kind] at hord)
      dsimp only
      rw [this]
      simp

/-- The hypotheses of `C54_inferred_partial` are met by a function returning `impl Iterator` with a
`return` and a `match`. -/
example : IsArgs [] [] none ∧ isExprNode Ex.fnIn = false ∧ ordinary "__Enum5" "marker" Ex.fnIn = true ∧
    allAttrs Ex.fnIn = [] ∧ ctors "__Enum5" Ex.fnIn = 0 ∧
    inferredFor Ex.taEnv.typeAnalysis [] Ex.fnIn = [.ofIdents ["Iterator"]] ∧
    autoEnum Ex.taEnv 20 5 [] (.stmt Ex.fnIn) = .code Ex.fnOut :=
  ⟨(parseArgs_iff _ _ _).mp rfl, by decide +kernel, by decide +kernel, by decide +kernel,
    by decide +kernel, by decide +kernel, by decide +kernel⟩

/-- `let x: impl Iterator = match y { 0 => 1, _ => 2 };` -/
def Ex.typedLet : Node := .mk (.sLocal (.typed "x" Ex.implIter)) []
  [.mk .eMatch [] [Ex.var "y", Ex.arm "0" (Ex.lit "1"), Ex.arm "_" (Ex.lit "2")]]

/-- The same for a `let` statement, which loses its annotation. -/
example : isExprNode Ex.typedLet = false ∧ ordinary "__Enum5" "marker" Ex.typedLet = true ∧
    allAttrs Ex.typedLet = [] ∧ ctors "__Enum5" Ex.typedLet = 0 ∧
    inferredFor Ex.taEnv.typeAnalysis [] Ex.typedLet = [.ofIdents ["Iterator"]] ∧
    ∃ out, autoEnum Ex.taEnv 20 5 [] (.stmt Ex.typedLet) = .code out ∧
      decide (out.kind = .sLocal (.plain "x")) = true :=
  ⟨by decide +kernel, by decide +kernel, by decide +kernel, by decide +kernel, by decide +kernel,
    Ex.of_check (by decide +kernel)⟩

/-- `fn f() -> impl Iterator { return 1; 2 }` -/
def Ex.lonely : Node := .mk (.iFn "f" (some Ex.implIter)) [] [.mk .block []
  [semiS (.mk .eReturn [] [Ex.lit "1"]), tailS (Ex.lit "2")]]

/-- A function that is left as it is, though it would be rejected if the trait were named. -/
example : isExprNode Ex.lonely = false ∧ ordinary "__Enum5" "marker" Ex.lonely = true ∧
    allAttrs Ex.lonely = [] ∧ ctors "__Enum5" Ex.lonely = 0 ∧
    inferredFor Ex.taEnv.typeAnalysis [] Ex.lonely = [.ofIdents ["Iterator"]] ∧
    (visible Ex.lonely).all (unmarked "marker") = true ∧
    autoEnum Ex.taEnv 20 5 [] (.stmt Ex.lonely) = .code Ex.lonely ∧
    autoEnum Ex.taEnv 20 5 Ex.iterator (.stmt Ex.lonely) = .errors [.twoOrMore .default true] := by
  decide +kernel

/-- `fn f() -> impl Iterator { let x = match y { 0 => marker!(1), _ => marker!(2) }; x }` -/
def Ex.forgotten : Node := .mk (.iFn "f" (some Ex.implIter)) [] [.mk .block [] [
  .mk (.sLocal (.plain "x")) [] [.mk .eMatch [] [Ex.var "y", Ex.arm "0" (Ex.marker (Ex.lit "1")),
    Ex.arm "_" (Ex.marker (Ex.lit "2"))]],
  tailS (Ex.var "x")]]

/-- `fn f() -> impl Iterator { let x = #[nested] match y { 0 => 1, _ => 2 }; x }` -/
def Ex.forgotten' : Node := .mk (.iFn "f" (some Ex.implIter)) [] [.mk .block [] [
  .mk (.sLocal (.plain "x")) [] [.mk .eMatch [Ex.helper "nested"] [Ex.var "y",
    Ex.arm "0" (Ex.lit "1"), Ex.arm "_" (Ex.lit "2")]],
  tailS (Ex.var "x")]]

/-- C54 is false with markers and `#[nested]`: a function with two marked expressions is left as it is
if the trait is inferred, but expanded if it is named. -/
theorem C54_counterexample :
    (autoEnum Ex.taEnv 20 5 [] (.stmt Ex.forgotten) = .code Ex.forgotten ∧
      ctors "__Enum5" (treatInput "__Enum5" "marker" Ex.forgotten) = 2 ∧
      ∃ out, autoEnum Ex.taEnv 20 5 Ex.iterator (.stmt Ex.forgotten) = .code out ∧
        decide (ctors "__Enum5" out = 2) = true) ∧
    (autoEnum Ex.taEnv 20 5 [] (.stmt Ex.forgotten') = .code Ex.forgotten' ∧
      ctors "__Enum5" (treatInput "__Enum5" "marker" Ex.forgotten') = 2 ∧
      ∃ out, autoEnum Ex.taEnv 20 5 Ex.iterator (.stmt Ex.forgotten') = .code out ∧
        decide (ctors "__Enum5" out = 2) = true) :=
  ⟨⟨by decide +kernel, by decide +kernel, Ex.of_check (by decide +kernel)⟩,
    by decide +kernel, by decide +kernel, Ex.of_check (by decide +kernel)⟩

end AutoEnums
