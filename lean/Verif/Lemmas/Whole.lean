import Verif.Lemmas.PendVisit
import Verif.Lemmas.FlowApi
import Verif.Lemmas.Balance
import Verif.Lemmas.Converge
import Verif.Lemmas.Types
import Verif.Lemmas.Own
import Verif.Spec.Whole

/-! # The expansion of a whole input -/

namespace AutoEnums

open Judg Spec

/-! ## The part before `build` -/

theorem Does.noExit {env : Env} {cx : Cx} (ha : cx.args ≠ []) : cx.analysisExit env = false := by
  unfold Cx.analysisExit
  split
  · rw [show cx.args.isEmpty = false by simpa using ha]
    simp
  · simp

theorem pend_start {J : Job} {H : Hit} (hJ : J.branches = false) (n : Node) :
    pend J H .result n = pend J H .plain n := by
  cases n with
  | mk k as ks =>
    rw [pend, pend]
    have h1 : ∀ r, roleP J r k as ks = .plain := by
      intro r
      unfold roleP
      split
      · rfl
      · unfold role
        rw [hJ]; rfl
    rw [h1, h1]

/-- If the expression is a closure, its expansion is not abandoned for lack of branches. -/
def Goes (env : Env) (cx : Cx) (e : Node) : Prop :=
  ∀ i as b, e = .mk (.eClosure i) as [b] → cx.visitLast = true →
    (childExpr (closureCx cx b) b).1.analysisExit env = false

theorem default_noExit {env : Env} {cx : Cx} (h : cx.mode = .default) (e : Node) :
    (childExpr cx e).1.analysisExit env = false := by
  unfold Cx.analysisExit
  rw [(childExpr_same e cx).mode, h]
  simp

theorem Goes.of_args {env : Env} {cx : Cx} (ha : cx.args ≠ []) (e : Node) : Goes env cx e := by
  intro i as b _ _
  exact Does.noExit (by rw [(childExpr_same b _).args]; exact ha)

/-- What the analysis of the branches makes of an expression. -/
theorem target_pend {J : Job} {cx : Cx} {e : Node} (hJ : Does J cx) (he : isExprNode e = true)
    (hf : Fine J [] J.start e) :
    Alike J.en (childExpr cx e).2 (pend J (hits []) J.start e) := by
  have hid : Alike J.en e (pend J (hits []) .plain e) := by
    have : (hits [] : Hit) = noHit := by funext l; cases l <;> rfl
    rw [this, pend_id]
    rfl
  have := childExpr_pend e [] (hits []) e cx hJ he hf.free hf.gram hf.labels hid
  unfold Job.start
  split
  · exact this
  · rename_i hb
    rw [← pend_start (by simpa using hb)]
    exact this

theorem target_treats {env : Env} {J : Job} {cx cx' : Cx} {e e' : Node}
    (h : Run env (target cx e cx' e')) (hJ : Does J cx)
    (ha : (childExpr cx e).1.analysisExit env = false)
    (he : isExprNode e = true) (hf : Fine J [] J.start e) :
    Alike J.en e' (treat J {} [] J.start e) ∧ Still cx cx' ∧ Same cx cx' := by
  have hs := h.keeps
  cases h with
  | target h1 h2 h3 =>
    have hp := target_pend hJ he hf
    have hR : Ready J {} {} (childExpr cx e).1 := ⟨hJ.same (childExpr_same _ _), rfl, rfl, rfl⟩
    obtain ⟨g1, g2⟩ := h3.treats J [] [] J.start {} e hR hf hp
    exact ⟨g1, (childExpr_still _ _).trans g2, hs⟩
  | targetExit h1 _ _ =>
    rw [ha] at h1
    cases h1

theorem expandExpr_run {env : Env} {rec : Rec} (hr : RunRec env rec) (cx : Cx) (e : Node)
    (h : Clean (expandExpr env rec cx e).1) :
    (∃ i as b b', cx.visitLast = true ∧ e = .mk (.eClosure i) as [b] ∧
      Run env (target (closureCx cx b) b (expandExpr env rec cx e).1 b') ∧
      (expandExpr env rec cx e).2 = .mk (.eClosure i) as [b']) ∨
    (cx.visitLast = true → ∀ i as b, e ≠ .mk (.eClosure i) as [b]) ∧
      Run env (target cx e (expandExpr env rec cx e).1 (expandExpr env rec cx e).2) := by
  unfold expandExpr at h ⊢
  split
  · rename_i i as b
    dsimp only at h
    split
    · rename_i hv
      rw [if_pos hv] at h
      exact .inl ⟨i, as, b, _, hv, rfl, (expandTarget_run hr _ _ h).2, rfl⟩
    · rename_i hv
      rw [if_neg hv] at h
      exact .inr ⟨fun h' => absurd h' hv, (expandTarget_run hr _ _ h).2⟩
  · rename_i hne
    refine .inr ⟨fun _ i as b heq => hne i as b heq, ?_⟩
    split at h
    · exact absurd rfl (hne _ _ _)
    · exact (expandTarget_run hr _ _ h).2

theorem Fine.of {J : Job} {r : Role} {e : Node} (h : ordinaryIn J r e = true) :
    isExprNode e = true ∧ Fine J [] r e := by
  unfold ordinaryIn at h
  simp only [Bool.and_eq_true, Bool.not_eq_true'] at h
  obtain ⟨⟨⟨⟨h1, h2⟩, h3⟩, h4⟩, h5⟩ := h
  exact ⟨h1, h2, h3, h4, h5⟩

theorem closure_does {cx : Cx} (hr : cx.root = true) (hl : cx.visitLast = true) {b : Node}
    (hs : shaped b = true) : Does (closureJob cx.ident cx.marker b) (closureCx cx b) := by
  have h := (fnCount_exits hr false b {} hs rfl rfl).2
  have hl' : cx.lastMode ≠ .never := by
    intro h; simp [Cx.visitLast, h] at hl
  unfold closureJob closureCx visitFn
  rw [h]
  split
  · rename_i hc
    refine ⟨rfl, rfl, hr, ?_, ?_, ?_⟩ <;> simp [Cx.visitLast]
  · rename_i hc
    refine ⟨rfl, rfl, hr, ?_, ?_, ?_⟩ <;> simp [Cx.visitLast, hl']

theorem expr_does {cx : Cx} (hr : cx.root = true) (hm : cx.mode = .default) :
    Does (exprJob cx.ident cx.marker (cx.lastMode == .never)) cx := by
  refine ⟨rfl, rfl, hr, ?_, ?_, ?_⟩ <;>
    cases h : cx.lastMode <;> simp [exprJob, Cx.visitLast, hm, h] <;> rfl

theorem expandExpr_treats {env : Env} {rec : Rec} (hr : RunRec env rec) {cx : Cx} {e : Node}
    (h : Clean (expandExpr env rec cx e).1) (hroot : cx.root = true) (hm : cx.mode = .default)
    (ha : Goes env cx e) (ho : ordinaryExpr cx.ident cx.marker (cx.lastMode == .never) e = true) :
    Alike cx.ident (expandExpr env rec cx e).2
      (treatExpr cx.ident cx.marker (cx.lastMode == .never) e) ∧
    (expandExpr env rec cx e).1.hasChild = cx.hasChild ∧
    Kept cx (expandExpr env rec cx e).1 ∧ (expandExpr env rec cx e).1.traits = cx.traits ∧
    (expandExpr env rec cx e).1.lastMode = cx.lastMode := by
  have hv : cx.visitLast = !(cx.lastMode == .never) := by
    cases h : cx.lastMode <;> simp [Cx.visitLast, hm, h] <;> rfl
  rcases expandExpr_run hr cx e h with ⟨i, as, b, b', hl, rfl, h1, h2⟩ | ⟨hne, h1⟩
  · have hlm : (cx.lastMode == VisitLastMode.never) = false := by rw [hl] at hv; simpa using hv.symm
    rw [hlm] at ho ⊢
    rw [h2]
    simp only [ordinaryExpr, Bool.and_eq_true] at ho
    obtain ⟨f1, f2⟩ := Fine.of ho.2
    obtain ⟨g1, g2, g3⟩ := target_treats h1 (closure_does hroot hl ho.1) (ha _ _ _ rfl hl) f1 f2
    have hen : (closureJob cx.ident cx.marker b).en = cx.ident := by
      unfold closureJob; split <;> rfl
    rw [hen] at g1
    refine ⟨.node _ _ (.cons g1 rfl), g2, ?_, g3.traits, g3.lastMode⟩
    exact Kept.trans (b := closureCx cx b) ⟨rfl, rfl, rfl, rfl, rfl, List.prefix_refl _⟩ g3.toKept
  · have hx : ordinaryExpr cx.ident cx.marker (cx.lastMode == .never) e =
        ordinaryIn (exprJob cx.ident cx.marker (cx.lastMode == .never))
          (exprJob cx.ident cx.marker (cx.lastMode == .never)).start e ∧
        treatExpr cx.ident cx.marker (cx.lastMode == .never) e =
          treat (exprJob cx.ident cx.marker (cx.lastMode == .never)) {} []
            (exprJob cx.ident cx.marker (cx.lastMode == .never)).start e := by
      unfold ordinaryExpr treatExpr
      generalize (cx.lastMode == VisitLastMode.never) = semi at *
      cases semi with
      | true => exact ⟨rfl, rfl⟩
      | false =>
        have hne := hne hv
        constructor
        · split
          · exact absurd rfl (hne _ _ _)
          · rfl
        · split
          · exact absurd rfl (hne _ _ _)
          · rfl
    rw [hx.1] at ho
    rw [hx.2]
    obtain ⟨f1, f2⟩ := Fine.of ho
    obtain ⟨g1, g2, g3⟩ := target_treats h1 (expr_does hroot hm) (default_noExit hm e) f1 f2
    exact ⟨g1, g2, g3.toKept, g3.traits, g3.lastMode⟩

/-! ## Functions -/

theorem fnAnalysis_lastMode {env : Env} {cx : Cx} {ret : Option Ty} {b : Node} :
    (fnAnalysis env cx ret b).lastMode = cx.lastMode := by
  unfold fnAnalysis
  split
  · rfl
  · dsimp only; split <;> rfl

theorem fnAnalysis_mode {env : Env} {cx : Cx} {ret : Option Ty} {b : Node} :
    (fnAnalysis env cx ret b).mode = (ret.map fun ty => retMode cx ty b).getD cx.mode := by
  unfold fnAnalysis
  split
  · rfl
  · dsimp only; split <;> rfl

theorem retMode_eq {cx : Cx} (hf : Fresh cx) (ty : Ty) (b : Node) : retMode cx ty b = match ty with
    | .mk (.implTrait _) _ => .ret (visitFn cx b).return_
    | .mk (.path false p (some false)) [.mk .argType _, .mk .argType [.mk (.implTrait _) _]] =>
      if pathEq p ["std", "core"] ["result", "Result"] && decide ((visitFn cx b).try_ ≥ 2)
      then .try_ else .default
    | _ => .default := by
  unfold retMode
  rw [if_neg (by rw [hf.lastMode]; decide), hf.mode]
  rfl

theorem fnAnalysis_does {env : Env} {cx : Cx} {ret : Option Ty} {b : Node} (hr : cx.root = true)
    (hf : Fresh cx) (hs : shaped b = true) :
    Does (fnJob cx.ident cx.marker ret b) (fnAnalysis env cx ret b) := by
  have h := (fnCount_exits hr false b {} hs rfl rfl).2
  have hk := fnAnalysis_kept (env := env) (cx := cx) (ret := ret) (b := b) rfl
  have hl := (fnAnalysis_lastMode (env := env) (cx := cx) (ret := ret) (b := b)).trans hf.lastMode
  have hm := fnAnalysis_mode (env := env) (cx := cx) (ret := ret) (b := b)
  generalize fnAnalysis env cx ret b = cx1 at *
  have hd : ∀ J : Job, J.en = cx.ident → J.marker = cx.marker →
      (J.branches = true ↔ cx1.mode ≠ .try_) →
      ((∃ n, cx1.mode = .ret n) ↔ J.returns = true) →
      (cx1.mode = .try_ ↔ J.tries = true) →
      Does J cx1 := by
    intro J h1 h2 h3 h4 h5
    refine ⟨hk.ident.trans h1.symm, hk.marker.trans h2.symm, hk.root.trans hr, ?_, h4, h5⟩
    unfold Cx.visitLast
    rw [hl, Bool.eq_iff_iff, h3]
    simp
  unfold fnJob
  split
  · rw [Option.map_some, Option.getD_some, retMode_eq hf] at hm
    apply hd <;> simp [hm]
  · rename_i p _ _ _
    rw [Option.map_some, Option.getD_some, retMode_eq hf] at hm
    dsimp only at hm
    unfold visitFn at hm
    rw [h] at hm
    split
    · rename_i hc
      rw [if_pos (by simpa [pathEq_result] using hc)] at hm
      apply hd <;> simp [hm]
    · rename_i hc
      rw [if_neg (by simpa [pathEq_result] using hc)] at hm
      apply hd <;> simp [hm]
  · rename_i h1 h2
    have hm : cx1.mode = .default := by
      rw [hm]
      cases ret with
      | some ty =>
        rw [Option.map_some, Option.getD_some, retMode_eq hf]
        split
        · exact absurd rfl (h1 _ _)
        · exact absurd rfl (h2 _ _ _ _)
        · rfl
      | none => exact hf.mode
    apply hd <;> simp [hm]

theorem pendL_start {J : Job} {H : Nat → Hit} (hJ : J.branches = false) (l : List Node)
    (ρ ρ' : Nat → Role) : pendL J H ρ l = pendL J H ρ' l := by
  induction l generalizing H ρ ρ' with
  | nil => rw [pendL, pendL]
  | cons n l ih =>
    rw [pendL, pendL, ih (fun i => ρ (i + 1)) (fun i => ρ' (i + 1))]
    congr 1
    cases n with
    | mk k as ks =>
      rw [pend, pend]
      have h1 : ∀ r, roleP J r k as ks = .plain := by
        intro r
        unfold roleP
        split
        · rfl
        · unfold role
          rw [hJ]; rfl
      rw [h1, h1]

theorem childLast_off {cx : Cx} (h : cx.visitLast = false) : ∀ ss, childLast cx ss = (cx, ss)
  | [] => rfl
  | [s] => by
    rw [childLast.eq_def]
    dsimp only
    split
    · rename_i heq
      cases heq
    · rename_i as e heq
      cases heq
      cases e with
      | mk k as ks =>
      rw [childExpr.eq_def]
      dsimp only
      rw [h]
      rfl
    · rename_i heq _ heq'
      cases heq'
      rfl
    · rename_i heq
      cases heq
  | s :: t :: ss => by
    rw [childLast_cons, childLast_off h (t :: ss)]

theorem pendL_none (J : Job) : ∀ l, pendL J (fun _ => hits []) (fun _ => .plain) l = l
  | [] => by rw [pendL]
  | n :: l => by
    have : (hits [] : Hit) = noHit := by funext l; cases l <;> rfl
    rw [pendL, this, pend_id, ← this, pendL_none J l]

/-- What the analysis of the last statement makes of the statements of a body. -/
theorem body_pend {J : Job} {cx : Cx} {ss : List Node} (hd : Does J cx)
    (h2 : (ss.all fun n => isStatement n.kind) = true) (h3 : hasAttrL "auto_enum" ss = false)
    (h4 : grammaticalL ss = true) (h5 : labelsOkL [] ss = true) :
    AlikeL J.en (childLast cx ss).2 (pendL J (fun _ => hits []) (bodyRole J ss.length) ss) := by
  have hid : AlikeL J.en ss (pendL J (fun _ => hits []) (fun _ => .plain) ss) := by
    rw [pendL_none]
    rfl
  by_cases hb : J.branches = true
  · have := childLast_pend hd hb h2 h4 hid ?_
    · have e : bodyRole J ss.length = fun i => if i + 1 = ss.length then .result else .plain := by
        funext i; simp [bodyRole, Job.start, hb]
      rw [e]; exact this
    · intro as2 e hm H t cx hF h
      have hge := grammatical_mk (grammaticalL_mem h4 hm) rfl
      have hfe := hasAttrL_mem h3 _ hm
      rw [hasAttr_mk, Bool.or_eq_false_iff] at hfe
      have hle := labelsOkL_mem h5 hm
      rw [labelsOk.eq_def] at hle
      simp only [hidesCode, Bool.false_or, labelOf, Bool.true_and, Option.toList_none,
        List.nil_append, labelsOkL, Bool.and_true] at hle
      exact childExpr_pend e [] H t cx hF (by simpa [kidsOk] using hge.1)
        (by simpa [Kind.isOpaque, NAME] using hfe.2) (by simpa [grammaticalL] using hge.2) hle h
  · rw [childLast_off (by rw [hd.branches]; simpa using hb),
      pendL_start (by simpa using hb) ss _ (fun _ => .plain)]
    exact hid

theorem body_treats {env : Env} {J : Job} {cx cx' : Cx} {asb : List Attr} {ss : List Node} {b' : Node}
    (hd : Does J cx) (ho : ordinaryBody J ss = true)
    (h : Run env (one .visitor {} (childLast cx ss).1 (.mk .block asb (childLast cx ss).2) cx' b')) :
    (∃ ss', b' = .mk .block asb ss' ∧ AlikeL J.en ss' (treatBody J ss)) ∧ Still cx cx' ∧
      Same cx cx' := by
  unfold ordinaryBody at ho
  simp only [Bool.and_eq_true, Bool.not_eq_true'] at ho
  obtain ⟨⟨⟨⟨⟨h1, h2⟩, h3⟩, h4⟩, h5⟩, h6⟩ := ho
  have hs := childLast_same ss cx
  have hs' : Same cx cx' := hs.trans h.keeps
  have hR : Ready J {} {} (childLast cx ss).1 := ⟨hd.same hs, rfl, rfl, rfl⟩
  have hp := body_pend hd h2 h3 h4 h5
  have key : ∀ cx1 ks, Run env (many .visitor {} (childLast cx ss).1 (childLast cx ss).2 cx1 ks) →
      AlikeL J.en ks (treatBody J ss) ∧ Still cx cx1 := by
    intro cx1 ks h
    obtain ⟨g1, g2⟩ := h.treats J [] (fun _ => []) (bodyRole J ss.length) {} ss hR
      ⟨h3, h4, h5, h6⟩ hp
    exact ⟨g1, (childLast_still _ _).trans g2⟩
  generalize childLast cx ss = c at *
  generalize hn : Node.mk .block asb c.2 = n at h
  cases h with
  | oneBlock g1 g2 g3 g4 =>
    subst hn
    have := key _ _ (by simpa [Node.sub, Kind.isOpaque] using g4)
    exact ⟨⟨_, by simp only [Node.rebuild, Kind.isOpaque]; rfl, this.1⟩, this.2, hs'⟩
  | oneExpr hx _ => subst hn; simp [Node.kind, Kind.isExpr] at hx
  | oneStmt _ => cases hn
  | oneArm hx _ => subst hn; simp [Node.kind] at hx
  | oneLocal hx _ _ => subst hn; simp [Node.kind] at hx
  | oneLocalChild hx => subst hn; simp [Node.kind] at hx
  | oneInert hx => subst hn; simp [Node.kind, Kind.isStmt] at hx

/-! ## Before and after the enum is built -/

/-- The input and the context right before the enum is built. -/
def core (env : Env) (rec : Rec) (cx : Cx) : Node → Cx × Node
  | .mk (.sExpr semi) as [e] =>
    ((expandExpr env rec (if semi then { cx with lastMode := .never } else cx) e).1,
      .mk (.sExpr semi) as
        [(expandExpr env rec (if semi then { cx with lastMode := .never } else cx) e).2])
  | .mk (.sLocal p) as (e :: els) =>
    ((expandExpr env rec (localAnalysis env cx p).1 e).1,
      .mk (.sLocal (localAnalysis env cx p).2) as
        ((expandExpr env rec (localAnalysis env cx p).1 e).2 :: els))
  | .mk (.iFn name ret) as [.mk .block asb ss] =>
    walk (rec .visitor {}) (childLast (fnAnalysis env cx ret (.mk .block asb ss)) ss).1
      (.mk (.iFn name ret) as
        [.mk .block asb (childLast (fnAnalysis env cx ret (.mk .block asb ss)) ss).2])
  | e => expandExpr env rec cx e

/-- The attribute is neither without effect nor abandoned for lack of branches. -/
def Active (env : Env) (cx : Cx) : Node → Prop
  | .mk (.sLocal p) _ (e :: _) =>
    (localAnalysis env cx p).1.isDummy = false ∧ Goes env (localAnalysis env cx p).1 e
  | .mk (.iFn _ ret) _ [.mk .block asb ss] =>
    (fnAnalysis env cx ret (.mk .block asb ss)).isDummy = false ∧
    (childLast (fnAnalysis env cx ret (.mk .block asb ss)) ss).1.analysisExit env = false
  | _ => cx.args ≠ []

/-- A way to pass the input. -/
def Passed (input : Input) (n : Node) : Prop :=
  input = .expr n ∧ isExprNode n = true ∨ input = .stmt n ∧ isExprNode n = false

theorem notDummy {cx : Cx} (h : cx.args ≠ []) : cx.isDummy = false := by
  simp [Cx.isDummy, h]

theorem Active.of_args {env : Env} {cx : Cx} (ha : cx.args ≠ []) (n : Node) : Active env cx n := by
  unfold Active
  split
  · rename_i p _ e _
    have hk : Kept cx (localAnalysis env cx p).1 :=
      localAnalysis_kept (p1 := (localAnalysis env cx p).2) rfl
    exact ⟨notDummy (by rw [hk.args]; exact ha), .of_args (by rw [hk.args]; exact ha) _⟩
  · rename_i ret _ asb ss
    have hk := fnAnalysis_kept (env := env) (cx := cx) (ret := ret) (b := .mk .block asb ss) rfl
    exact ⟨notDummy (by rw [hk.args]; exact ha),
      Does.noExit (by rw [(childLast_same ss _).args, hk.args]; exact ha)⟩
  · exact ha

theorem expandBuild_core (env : Env) (rec : Rec) (cx : Cx) (e : Node) :
    (expandBuild env rec cx e).1 = (expandExpr env rec cx e).1.build.1 ∧
    ∀ g, (expandExpr env rec cx e).1.build.2 = some g →
      (expandBuild env rec cx e).2 = inBlock g (expandExpr env rec cx e).2 := by
  unfold expandBuild
  dsimp only
  split
  · rename_i cx' item h
    rw [h]
    refine ⟨rfl, fun g hg => ?_⟩
    cases hg
    rfl
  · rename_i cx' h
    rw [h]
    exact ⟨rfl, fun g hg => nomatch hg⟩

theorem T.expr {env : Env} {b : Bool} {cx cx' : Cx} {n n' : Node} (h : T env b cx n cx' n')
    (he : cx'.errs = []) (h0 : n.kind.isExpr = true) : n'.kind.isExpr = true := by
  induction h with
  | refl => exact h0
  | trans _ h2 ih1 ih2 => exact ih2 he (ih1 (errs_nil_of_prefix h2.errs_mono he) h0)
  | book => exact h0
  | kid _ _ _ _ => exact h0
  | wrapVal => exact h0
  | wrapArm => exact h0
  | wrapBlock => exact h0
  | fill => exact h0
  | marker => rfl
  | tryOp => rfl
  | dropAttr _ h => rw [findRemoveAttr_kind h]; exact h0
  | unmark _ h => exact absurd he h
  | badMark => simp [Cx.error] at he
  | dropRec => simp [Cx.error] at he
  | child _ h _ _ _ _ hj ih1 ih2 =>
    obtain ⟨e1, e2⟩ := join_nil hj he
    exact ih2 e2 (ih1 e1 (by rw [findRemoveAttr_kind h]; exact h0))
  | exPlain _ _ ih => exact ih he h0
  | exErr _ h _ => exact absurd he h
  | exTwo => simp [Cx.error] at he
  | exExpr => rfl
  | exKid => exact h0
  | exPat => exact absurd h0 (by simp [Node.kind, Kind.isExpr])
  | exFn _ _ ih => exact absurd (ih he h0) (by simp [Node.kind, Kind.isExpr])
  | exSetup _ _ ih => exact ih he h0

/-- What is known before the enum is built. -/
structure Treated (env : Env) (cx : Cx) (n : Node) (r : Cx × Node) : Prop where
  alike : Alike cx.ident r.2 (retype env.typeAnalysis cx.args (treatInput cx.ident cx.marker n))
  child : r.1.hasChild = cx.hasChild
  kept : Kept cx r.1
  traits : r.1.traits = inferredFor env.typeAnalysis cx.args n

theorem localAnalysis_traits {env : Env} {cx : Cx} (hf : Fresh cx) (p : LetPat) (as : List Attr)
    (ks : List Node) :
    (localAnalysis env cx p).1.traits = inferredFor env.typeAnalysis cx.args (.mk (.sLocal p) as ks) ∧
    .mk (.sLocal (localAnalysis env cx p).2) as ks =
      retype env.typeAnalysis cx.args (.mk (.sLocal p) as ks) ∧
    (localAnalysis env cx p).1.hasChild = cx.hasChild ∧
    (localAnalysis env cx p).1.mode = cx.mode ∧
    (localAnalysis env cx p).1.lastMode = cx.lastMode := by
  unfold localAnalysis inferredFor retype
  cases env.typeAnalysis with
  | false =>
    simp only [Bool.false_eq_true, if_false, false_and, hf.traits]
    cases p <;> simp
  | true =>
    cases p with
    | typed s ty =>
      simp only [if_true, Cx.collectImplTrait, collectTy_eq, hf.traits, List.nil_append, annotationOf,
        Option.map_some, Option.getD_some, true_and]
      split <;> simp_all
    | _ => simp [annotationOf, hf.traits]

theorem fnAnalysis_traits {env : Env} {cx : Cx} (hf : Fresh cx) (name : String) (ret : Option Ty)
    (as : List Attr) (ks : List Node) (b : Node) :
    (fnAnalysis env cx ret b).traits =
      inferredFor env.typeAnalysis cx.args (.mk (.iFn name ret) as ks) ∧
    (fnAnalysis env cx ret b).hasChild = cx.hasChild := by
  unfold fnAnalysis inferredFor
  cases env.typeAnalysis with
  | false => cases ret <;> simp [hf.traits]
  | true =>
    cases ret <;> simp [hf.traits, annotationOf, Cx.collectImplTrait, collectTy_eq]

theorem fn_core {env : Env} {rec : Rec} (hr : RunRec env rec) {cx : Cx} {name : String}
    {ret : Option Ty} {as asb : List Attr} {ss : List Node} (hroot : cx.root = true) (hf : Fresh cx)
    (ho : ordinary cx.ident cx.marker (.mk (.iFn name ret) as [.mk .block asb ss]) = true)
    (hc : Clean (core env rec cx (.mk (.iFn name ret) as [.mk .block asb ss])).1) :
    (∃ ss', (core env rec cx (.mk (.iFn name ret) as [.mk .block asb ss])).2 =
      .mk (.iFn name ret) as [.mk .block asb ss']) ∧
    Treated env cx (.mk (.iFn name ret) as [.mk .block asb ss])
      (core env rec cx (.mk (.iFn name ret) as [.mk .block asb ss])) := by
  simp only [ordinary, Bool.and_eq_true] at ho
  simp only [core] at hc ⊢
  obtain ⟨_, ks, h1, h2⟩ := walk_run hr _ _ _ _ hc
  have hd := fnAnalysis_does (env := env) (ret := ret) (b := .mk .block asb ss) hroot hf
    (by simpa [shaped] using ho.1)
  have ht := fnAnalysis_traits (env := env) hf name ret as [.mk .block asb ss] (.mk .block asb ss)
  have hk := fnAnalysis_kept (env := env) (cx := cx) (ret := ret) (b := .mk .block asb ss) rfl
  generalize fnAnalysis env cx ret (.mk .block asb ss) = cx1 at *
  simp only [Node.sub, Kind.isOpaque, Bool.false_eq_true, if_false] at h1
  simp only [Node.rebuild, Kind.isOpaque, Bool.false_eq_true, if_false] at h2
  generalize walk (rec .visitor {}) (childLast cx1 ss).1
    (.mk (.iFn name ret) as [.mk .block asb (childLast cx1 ss).2]) = r at *
  cases h1 with
  | cons g1 g2 =>
    cases g2
    obtain ⟨⟨ss', rfl, ha⟩, hs, hm⟩ := body_treats hd ho.2 g1
    refine ⟨⟨ss', h2⟩, ?_, Eq.trans hs ht.2, hk.trans hm.toKept, hm.traits.trans ht.1⟩
    rw [h2]
    have hen : (fnJob cx.ident cx.marker ret (.mk .block asb ss)).en = cx.ident := by
      rw [← hd.ident]; exact hk.ident
    rw [hen] at ha
    exact .node _ _ (.cons (.node _ _ ha) rfl)

theorem expandExpr_expr {env : Env} {rec : Rec} (hg : GoodRec env rec) {cx : Cx} {e : Node}
    (hf : Fresh cx) (hc : (expandExpr env rec cx e).1.errs = []) (he : e.kind.isExpr = true) :
    (expandExpr env rec cx e).2.kind.isExpr = true := by
  obtain ⟨cx0, _, ht⟩ := expandExpr_tr hg cx e hf.mode
  exact ht.expr hc he

theorem core_treated {env : Env} {rec : Rec} (hr : RunRec env rec) (hg : GoodRec env rec) {cx : Cx} {n : Node}
    (hroot : cx.root = true) (hf : Fresh cx) (ha : Active env cx n)
    (ho : ordinary cx.ident cx.marker n = true) (hc : Clean (core env rec cx n).1) :
    Treated env cx n (core env rec cx n) := by
  unfold ordinary at ho
  split at ho
  · rename_i semi as e
    simp only [core] at hc ⊢
    have hl : ((if semi then { cx with lastMode := .never } else cx).lastMode == .never) = semi := by
      cases semi
      · simp [hf.lastMode]
      · rfl
    have hk : Kept cx (if semi then { cx with lastMode := .never } else cx) := by
      cases semi <;> exact ⟨rfl, rfl, rfl, rfl, rfl, List.prefix_refl _⟩
    have h2 : (if semi then { cx with lastMode := .never } else cx).hasChild = cx.hasChild := by
      cases semi <;> rfl
    have h3 : (if semi then { cx with lastMode := .never } else cx).mode = .default := by
      cases semi <;> exact hf.mode
    have h4 : (if semi then { cx with lastMode := .never } else cx).traits = [] := by
      cases semi <;> exact hf.traits
    generalize (if semi then { cx with lastMode := .never } else cx) = cx1 at *
    obtain ⟨g1, g2, g3, g4, g5⟩ := expandExpr_treats hr hc (hk.root.trans hroot) h3
      (.of_args (by rw [hk.args]; exact ha) e) (by rw [hl, hk.ident, hk.marker]; exact ho)
    rw [hl, hk.ident, hk.marker] at g1
    exact ⟨.node _ _ (.cons g1 rfl), g2.trans h2, hk.trans g3, by rw [g4, h4]; simp [inferredFor, annotationOf]⟩
  · rename_i p as e els
    simp only [core] at hc ⊢
    obtain ⟨h1, h2, h3, h4, h5⟩ := localAnalysis_traits (env := env) hf p as (treatExpr cx.ident cx.marker false e :: els)
    have hk : Kept cx (localAnalysis env cx p).1 := localAnalysis_kept (p1 := (localAnalysis env cx p).2) rfl
    simp only [Active] at ha
    generalize localAnalysis env cx p = r at *
    have hl : (r.1.lastMode == .never) = false := by rw [h5, hf.lastMode]; rfl
    obtain ⟨g1, g2, g3, g4, g5⟩ := expandExpr_treats hr hc (hk.root.trans hroot) (h4.trans hf.mode)
      ha.2 (by rw [hl, hk.ident, hk.marker]; exact ho)
    rw [hl, hk.ident, hk.marker] at g1
    refine ⟨?_, g2.trans h3, hk.trans g3, g4.trans h1⟩
    simp only [treatInput]
    rw [← h2]
    exact .node _ _ (.cons g1 rfl)
  · rename_i name ret as asb ss
    exact (fn_core hr hroot hf (by unfold ordinary; exact ho) hc).2
  · rename_i h1 h2 h3
    simp only [Bool.and_eq_true] at ho
    have hco : core env rec cx n = expandExpr env rec cx n := by
      unfold core; split <;> first | rfl | simp [isExprNode, Node.kind] at ho
    have hti : treatInput cx.ident cx.marker n = treatExpr cx.ident cx.marker false n := by
      unfold treatInput; split <;> first | rfl | simp [isExprNode, Node.kind] at ho
    rw [hco] at hc ⊢
    have hl : (cx.lastMode == .never) = false := by rw [hf.lastMode]; rfl
    have ha : cx.args ≠ [] := by
      unfold Active at ha; split at ha <;> first | exact ha | simp [isExprNode, Node.kind] at ho
    obtain ⟨g1, g2, g3, g4, g5⟩ := expandExpr_treats hr hc hroot hf.mode (.of_args ha n) (by rw [hl]; exact ho.2)
    rw [hl] at g1
    have hx := expandExpr_expr hg hf hc.1 (by rw [← isExprNode_eq]; exact ho.1)
    refine ⟨?_, g2, g3, ?_⟩
    · rw [hti]
      have hx' : (treatExpr cx.ident cx.marker false n).kind.isExpr = true := by
        generalize (expandExpr env rec cx n).2 = a at *
        generalize treatExpr cx.ident cx.marker false n = b at *
        cases a with
        | mk k as ks =>
        cases b with
        | mk k' as' ks' =>
        unfold Alike at g1
        simp only [blur, Node.mk.injEq] at g1
        rw [← hx]
        exact (isExpr_blur g1.1).symm
      unfold retype
      split
      · rename_i heq
        rw [heq] at hx'
        exact absurd hx' (by simp [Node.kind, Kind.isExpr])
      · exact g1
    · rw [g4, hf.traits]
      cases n with
      | mk k as ks =>
      unfold inferredFor
      have : annotationOf (k, as) = none := by
        unfold annotationOf
        split <;> first | rfl | (rename_i heq; cases heq; simp [isExprNode, Node.kind] at ho)
      dsimp only
      rw [this]
      simp

theorem placeEnum_expr {g n : Node} (h : n.kind.isExpr = true) : placeEnum g n = inBlock g n := by
  unfold placeEnum
  split <;> first | rfl | simp [Node.kind, Kind.isExpr] at h

theorem core_spec {env : Env} {fuel : Nat} {cx : Cx} {input : Input} {n : Node} {r : Cx × Node}
    (hp : Passed input n) (ho : ordinary cx.ident cx.marker n = true) (ha : Active env cx n)
    (hroot : cx.root = true) (hf : Fresh cx)
    (hex : expandInput env fuel cx input = some r) :
    r.1 = (core env (visit env fuel) cx n).1.build.1 ∧
    ∀ g, (core env (visit env fuel) cx n).1.build.2 = some g →
      Clean (core env (visit env fuel) cx n).1 →
      r.2 = placeEnum g (core env (visit env fuel) cx n).2 := by
  have hrun := visit_run env fuel
  have hgood := visit_good env fuel
  generalize hrec : visit env fuel = rec at *
  rcases hp with ⟨rfl, he⟩ | ⟨rfl, he⟩
  · simp only [expandInput, hrec, Option.some.injEq] at hex
    subst hex
    have hc : core env rec cx n = expandExpr env rec cx n := by
      unfold core; split <;> first | rfl | simp [isExprNode, Node.kind] at he
    rw [hc]
    have ha : cx.args ≠ [] := by
      unfold Active at ha; split at ha <;> first | exact ha | simp [isExprNode, Node.kind] at he
    simp only [expandParentExpr, Bool.false_eq_true, if_false, notDummy ha]
    obtain ⟨h1, h2⟩ := expandBuild_core env rec cx n
    refine ⟨h1, fun g hg hcl => ?_⟩
    rw [h2 g hg, placeEnum_expr (expandExpr_expr hgood hf hcl.1 (by rw [← isExprNode_eq]; exact he))]
  · simp only [expandInput, hrec, Option.some.injEq] at hex
    subst hex
    unfold ordinary at ho
    split at ho
    · rename_i semi as e
      simp only [core, expandParentStmt, expandParentExpr]
      have hk : (if semi then { cx with lastMode := .never } else cx).args = cx.args := by
        cases semi <;> rfl
      generalize (if semi then { cx with lastMode := .never } else cx) = cx1 at *
      rw [if_neg (by rw [notDummy (by rw [hk]; exact ha)]; simp)]
      obtain ⟨h1, h2⟩ := expandBuild_core env rec cx1 e
      exact ⟨h1, fun g hg hcl => by rw [h2 g hg]; rfl⟩
    · rename_i p as e els
      simp only [core, expandParentStmt, expandParentLocal]
      have hk : Kept cx (localAnalysis env cx p).1 :=
        localAnalysis_kept (p1 := (localAnalysis env cx p).2) rfl
      simp only [Active] at ha
      generalize localAnalysis env cx p = r at *
      rw [if_neg (by rw [ha.1]; simp)]
      obtain ⟨h1, h2⟩ := expandBuild_core env rec r.1 e
      exact ⟨h1, fun g hg hcl => by dsimp only; rw [h2 g hg]; rfl⟩
    · rename_i name ret as asb ss
      have hk := fnAnalysis_kept (env := env) (cx := cx) (ret := ret) (b := .mk .block asb ss) rfl
      have hfc := fn_core (name := name) (ret := ret) (as := as) (asb := asb) (ss := ss) hrun
        hroot hf (by unfold ordinary; exact ho)
      simp only [core] at hfc
      simp only [core, expandParentStmt, expandParentFn]
      simp only [Bool.and_eq_true] at ho
      have hne : ss.isEmpty = false := by
        have := ho.2
        simp only [ordinaryBody, Bool.and_eq_true, Bool.not_eq_true'] at this
        exact this.1.1.1.1.1
      simp only [Active] at ha
      generalize fnAnalysis env cx ret (.mk .block asb ss) = cx1 at *
      rw [if_neg (by rw [ha.1]; simp), hne]
      simp only [Bool.false_eq_true, if_false]
      generalize childLast cx1 ss = c at *
      rw [if_neg (by rw [ha.2]; simp)]
      generalize walk (rec .visitor {}) c.1 (.mk (.iFn name ret) as [.mk .block asb c.2]) = w at *
      split
      · rename_i cx2 item k as2 asb2 ss2 hb hw
        rw [hb]
        refine ⟨rfl, fun g hg hcl => ?_⟩
        cases hg
        obtain ⟨⟨ss', h1⟩, _⟩ := hfc hcl
        rw [h1] at hw
        cases hw
        rw [h1]
        rfl
      · rename_i cx2 item hb hw
        rw [hb]
        refine ⟨rfl, fun g hg hcl => ?_⟩
        obtain ⟨⟨ss', h1⟩, _⟩ := hfc hcl
        exact (hw _ _ _ _ _ h1 hg).elim
    · simp [he] at ho

/-- The labels are the same up to the pattern of a `let`. -/
theorem core_tr {env : Env} {rec : Rec} (hg : GoodRec env rec) {cx : Cx} (hf : Fresh cx) (n : Node) :
    ∃ cx0 n0, T env false cx0 n0 (core env rec cx n).1 (core env rec cx n).2 ∧
      cx0.ident = cx.ident ∧ cx0.variants = [] ∧ cx0.errs = cx.errs ∧
      ctors cx.ident n0 = ctors cx.ident n ∧ names n0 = names n := by
  unfold core
  split
  · rename_i semi as e
    dsimp only
    have hs := semi_setup (env := env) cx e semi
    have hm := (semi_mode cx semi).trans hf.mode
    generalize (if semi then { cx with lastMode := .never } else cx) = cx1 at *
    obtain ⟨cx0, h1, h2⟩ := expandExpr_tr hg cx1 e hm
    refine ⟨cx0, _, T.kid0 rfl (.plain rfl (by simp)) h2, h1.ident.trans hs.ident, ?_,
      h1.errs.trans hs.errs, rfl, rfl⟩
    rw [h1.variants, hs.variants, hf.variants]
  · rename_i p as e els
    dsimp only
    obtain ⟨hs, hm, _⟩ := localAnalysis_setup (env := env) cx p as (e :: els) hf
    generalize localAnalysis env cx p = r at *
    obtain ⟨cx0, h1, h2⟩ := expandExpr_tr hg r.1 e (hm.trans hf.mode)
    refine ⟨cx0, .mk (.sLocal r.2) as (e :: els),
      T.kid (pre := []) rfl (.plain rfl (by simp)) h2, h1.ident.trans hs.ident, ?_,
      h1.errs.trans hs.errs, ?_, ?_⟩
    · rw [h1.variants, hs.variants, hf.variants]
    · simp [ctors, isCtor]
    · simp [names, cnt]
  · rename_i name ret as asb ss
    have hs := fnAnalysis_setup (env := env) cx name ret as [.mk .block asb ss] (.mk .block asb ss) hf
    have hi := hs.inv hf.mode
    generalize fnAnalysis env cx ret (.mk .block asb ss) = cx1 at *
    have h1 : T env false cx1 (.mk (.iFn name ret) as [.mk .block asb ss]) (childLast cx1 ss).1
        (.mk (.iFn name ret) as [.mk .block asb (childLast cx1 ss).2]) := by
      refine T.kid0 rfl (.plain rfl (by simp)) ?_
      exact childLast_tr (k := .block) rfl asb ss (fun m _ => childExpr_tr m) cx1 ss [] (fun _ h => h)
    refine ⟨cx1, _, h1.trans (walk_tr hg .visitor {} _ _ (h1.inv hi)), hs.ident, ?_, hs.errs, rfl, rfl⟩
    rw [hs.variants, hf.variants]
  · obtain ⟨cx0, h1, h2⟩ := expandExpr_tr hg cx n hf.mode
    exact ⟨cx0, n, h2, h1.ident, h1.variants.trans hf.variants, h1.errs, rfl, rfl⟩

theorem core_own {env : Env} {rec : Rec} (hg : GoodRec env rec) {cx : Cx} (hf : Fresh cx)
    (he : cx.errs = []) (n : Node) (hn : names n = 0) :
    (∀ e ∈ (core env rec cx n).1.errs, e.isTwo = false) ∧
    ((core env rec cx n).1.errs = [] → ctors cx.ident (core env rec cx n).2 =
      ctors cx.ident n + (core env rec cx n).1.variants.length) ∧
    (core env rec cx n).1.variants = variantNames (core env rec cx n).1.variants.length := by
  obtain ⟨cx0, n0, h1, h2, h3, h4, h5, h6⟩ := core_tr hg hf n
  have h := h1.own rfl (h6.trans hn)
  refine ⟨fun e hx => ?_, fun hc => ?_, h.names (by rw [h3]; rfl)⟩
  · cases htwo : e.isTwo with
    | false => rfl
    | true =>
      have := h.two e hx htwo
      rw [h4, he] at this
      cases this
  · have := h.count hc
    rw [h2, h3, h5] at this
    simpa using this

end AutoEnums
