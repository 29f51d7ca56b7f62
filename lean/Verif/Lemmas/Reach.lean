import Verif.Lemmas.Number

/-! # Lemmas: a successful expansion reaches the expression in result position -/

namespace AutoEnums

open Spec Judg

/-- The expression `r` in result position has been analysed first and then visited, giving `r'`. -/
def Reached (env : Env) (en : Ident) (m : String) (r r' : Node) : Prop :=
  ∃ sc semi cx cx1 cx2, sc.foreign = false ∧ cx.root = true ∧ cx.visitLast = true ∧
    cx.ident = en ∧ cx.marker = m ∧ cx.variants = [] ∧ exempt m r = false ∧ clearWay r = true ∧
    Clean (childExpr cx r).1 ∧ Run env (expr .visitor sc semi cx1 (childExpr cx r).2 cx2 r')

theorem clearWay_attrs {n : Node} (h : clearWay n = true) :
    anyAttr n.rawAttrs NAME = false ∧ anyEmptyAttr n.rawAttrs NESTED = false := by
  obtain ⟨k, as, ks⟩ := n
  rw [clearWay.eq_def] at h
  simp only [Bool.and_eq_true, Bool.not_eq_true', inner_eq, marked_eq] at h
  exact h.1

theorem clearWayLast_lastOf {ks : List Node} (hx : isBranching (lastOf ks).kind = true)
    (h : clearWayLast ks = true) (ih : ∀ m, sizeOf m < sizeOf ks →
      isBranching (resultOf m).kind = true → clearWay m = true → clearWay (resultOf m) = true) :
    clearWay (lastOf ks) = true := by
  obtain ⟨ms, as, e, rfl, he⟩ := lastForm hx
  rw [he] at hx ⊢
  rw [clearWayLast_append] at h
  simp only [clearWayLast] at h
  have hsz : sizeOf e < sizeOf (ms ++ [Node.mk (.sExpr false) as [e]]) := by
    have : ∀ (l : List Node) (n : Node), sizeOf n < sizeOf (l ++ [n]) := by
      intro l n
      induction l with
      | nil => simp; omega
      | cons _ _ ih => simp at ih ⊢; omega
    have := this ms (.mk (.sExpr false) as [e])
    simp at this ⊢
    omega
  exact ih e hsz hx h

theorem clearWay_resultOf : ∀ n, isBranching (resultOf n).kind = true → clearWay n = true →
    clearWay (resultOf n) = true := by
  apply Node.strongInd
  rintro ⟨k, as, ks⟩ ih hx hc
  have hkid : resultOf (.mk k as ks) = .mk k as ks → clearWay (resultOf (.mk k as ks)) = true := by
    intro h; rw [h]; exact hc
  rw [clearWay.eq_def] at hc
  cases k <;> try (refine hkid ?_; rw [resultOf.eq_def]; done)
  case eBlock l =>
    simp only [Bool.and_eq_true] at hc
    simp only [resultOf] at hx ⊢
    exact clearWayLast_lastOf hx hc.2 fun m hm => ih m (by simp; omega)
  case eUnsafe =>
    simp only [Bool.and_eq_true] at hc
    simp only [resultOf] at hx ⊢
    exact clearWayLast_lastOf hx hc.2 fun m hm => ih m (by simp; omega)
  case eParen =>
    rcases ks with _ | ⟨e, _ | ⟨e2, es⟩⟩
    · exact hkid (by rw [resultOf.eq_def])
    · simp only [Bool.and_eq_true] at hc
      simp only [resultOf] at hx ⊢
      exact ih e (by simp; omega) hx hc.2
    · exact hkid (by rw [resultOf.eq_def])
  case eMethodCall m =>
    rcases ks with _ | ⟨e, es⟩
    · exact hkid (by rw [resultOf.eq_def])
    · simp only [Bool.and_eq_true] at hc
      simp only [resultOf] at hx ⊢
      exact ih e (by simp; omega) hx hc.2

theorem branching_forms {k : Kind} (h : isBranching k = true) : k.isExpr = true ∧ k ≠ .eTry ∧
    k ≠ .eReturn ∧ k.isOpaque = false ∧ (∀ p t, k ≠ .eMacro p t) ∧ ∀ i, k ≠ .eClosure i := by
  cases k <;> first | cases h; done | simp [Kind.isExpr, Kind.isOpaque]

theorem Reached.kind {env : Env} {en m : String} {r r' : Node} (h : Reached env en m r r')
    (hb : isBranching r.kind = true) : r'.kind = r.kind := by
  obtain ⟨sc, semi, cx, cx1, cx2, hf, _, _, _, _, _, _, hc, _, hr⟩ := h
  obtain ⟨h1, h2⟩ := childExpr_top cx r
  obtain ⟨b1, b2, b3, b4, b5, b6⟩ := branching_forms hb
  generalize (childExpr cx r).2 = x at *
  obtain ⟨k, as, ks⟩ := x
  cases h1
  refine hr.kind hf ?_ b2 b1 b5
  have := (clearWay_attrs hc).1
  rw [← h2] at this
  exact this

theorem target_reached {env : Env} {cx cx' : Cx} {e e' : Node} (hr : Run env (Judg.target cx e cx' e'))
    (hroot : cx.root = true) (hv : cx.visitLast = true) (ha : cx.args ≠ []) (hn : cx.variants = [])
    (hb : isBranching (resultOf e).kind = true) (hu : exempt cx.marker e = false)
    (hc : clearWay e = true) : Reached env cx.ident cx.marker (resultOf e) (resultOf e') := by
  obtain ⟨h1, h2, h3, h3'⟩ := reaches hroot hv e hb hu hc
  cases hr with
  | targetExit h =>
    have := (childExpr_same e cx).args
    rw [analysisExit_args h] at this
    exact absurd this.symm ha
  | target _ hcl h =>
    have hk := (childExpr_top cx e).1
    have h4 := h.toExpr (by rw [hk]; exact isExpr_of_branching hb)
    obtain ⟨sc1, semi1, cx1, cx2, hf, h5⟩ := h4.way _ _ _ _ _ _ rfl (by
      rw [h1, (childExpr_top cx (resultOf e)).1]; exact hb) h2
    rw [h1] at h5
    exact ⟨sc1, semi1, cx, cx1, cx2, hf, hroot, hv, rfl, rfl, hn, h3, clearWay_resultOf e hb hc, h3' ▸ hcl, h5⟩

theorem resultOf_built (cx : Cx) (e : Node) : resultOf (built cx e) = resultOf e := by
  unfold built
  split
  · rfl
  · exact resultOf_inBlock _ _

/-- The result after the expansion of an expression; the body of a closure is entered. -/
theorem build_reached {env : Env} {cx cx' : Cx} {e e' : Node} (hr : Run env (Judg.build cx e cx' e'))
    (hroot : cx.root = true) (hv : cx.visitLast = true) (ha : cx.args ≠ []) (hn : cx.variants = [])
    (hb : isBranching (resultOf (bodyOf e)).kind = true) (hu : exempt cx.marker (bodyOf e) = false)
    (hc : clearWay (bodyOf e) = true) (hs : shaped (bodyOf e) = true)
    (hJ : (jobOfExpr cx.ident cx.marker e).branches = true) :
    Reached env cx.ident cx.marker (resultOf (bodyOf e)) (enterClosure (resultOf e')) ∧
      isExprNode e' = true := by
  have key : ∀ cx0 cx1 : Cx, ∀ b b' : Node, Reached env cx0.ident cx0.marker (resultOf b) (resultOf b') →
      isBranching (resultOf b).kind = true → enterClosure (resultOf (built cx1 b')) = resultOf b' ∧
        isExprNode (built cx1 b') = true := by
    intro cx0 cx1 b b' h hb
    have hk := h.kind hb
    constructor
    · rw [resultOf_built]
      generalize resultOf b' = x at *
      obtain ⟨k, as, ks⟩ := x
      simp only [Node.kind] at hk
      obtain ⟨_, _, _, _, _, b6⟩ := branching_forms hb
      unfold enterClosure
      split
      · rename_i heq; cases heq; exact absurd hk.symm (b6 _)
      · rfl
    · unfold built
      split
      · rw [isExprNode_eq]
        exact isExpr_of_branching (by rw [hk]; exact hb)
      · rfl
  cases hr with
  | @buildExpr _ _ _ e1 hne ht hB =>
    have hbo : bodyOf e = e := by
      unfold bodyOf
      split
      · exact absurd rfl (hne hv _ _ _)
      · rfl
    rw [hbo] at hb hu hc ⊢
    have h := target_reached ht hroot hv ha hn hb hu hc
    obtain ⟨k1, k2⟩ := key cx cx' _ _ h hb
    rw [k1]
    exact ⟨h, k2⟩
  | @buildClosure _ b _ b' i as hl ht hB =>
    have hv' : (closureCx cx b).visitLast = true := by
      rw [(closure_does (b := b) hroot hl hs).branches]
      exact hJ
    have h := target_reached ht hroot hv' ha hn hb hu hc
    rw [resultOf_built]
    refine ⟨?_, ?_⟩
    · have : enterClosure (resultOf (.mk (.eClosure i) as [b'])) = resultOf b' := by
        rw [resultOf.eq_def]
        rfl
      rw [this]
      exact h
    · unfold built
      split <;> rfl

theorem localAnalysis_modes {env : Env} {cx cx1 : Cx} {p p1 : LetPat}
    (h : localAnalysis env cx p = (cx1, p1)) :
    cx1.lastMode = cx.lastMode ∧ cx1.mode = cx.mode ∧ cx1.variants = cx.variants := by
  have : (localAnalysis env cx p).1.lastMode = cx.lastMode ∧
      (localAnalysis env cx p).1.mode = cx.mode ∧
      (localAnalysis env cx p).1.variants = cx.variants := by
    unfold localAnalysis
    split
    · split <;> exact ⟨rfl, rfl, rfl⟩
    · exact ⟨rfl, rfl, rfl⟩
  rw [h] at this
  exact this

theorem fnAnalysis_variants {env : Env} {cx : Cx} {ret : Option Ty} {b : Node} :
    (fnAnalysis env cx ret b).variants = cx.variants := by
  unfold fnAnalysis
  split
  · rfl
  · dsimp only; split <;> rfl

theorem visitLast_fresh {cx : Cx} (h : Fresh cx) : cx.visitLast = true := by
  simp [Cx.visitLast, h.lastMode, h.mode]

theorem onExpr_reached {env : Env} {cx cx' : Cx} {e e' : Node}
    (hr : Run env (onExpr false cx e cx' e')) (hf : Fresh cx)
    (hroot : cx.root = true) (ha : cx.args ≠ [])
    (hb : isBranching (resultOf (bodyOf e)).kind = true) (hu : exempt cx.marker (bodyOf e) = false)
    (hc : clearWay (bodyOf e) = true) (hs : shaped (bodyOf e) = true)
    (hJ : (jobOfExpr cx.ident cx.marker e).branches = true) :
    Reached env cx.ident cx.marker (resultOf (bodyOf e)) (enterClosure (resultOf e')) ∧
      isExprNode e' = true := by
  cases hr with
  | exprDummy hd => simp [Cx.isDummy, ha] at hd
  | exprBuild _ h =>
    exact build_reached h hroot (visitLast_fresh hf) ha hf.variants hb hu hc hs hJ

/-- What reaches the result of an annotated function body. -/
theorem fn_reached {env : Env} {cx cx' : Cx} {asb : List Attr} {ss : List Node} {b' : Node}
    (hcl : Clean (childLast cx ss).1)
    (hr : Run env (many .visitor {} (childLast cx ss).1 [.mk .block asb (childLast cx ss).2] cx' [b']))
    (hroot : cx.root = true) (hv : cx.visitLast = true) (hn : cx.variants = [])
    (hb : isBranching (lastOf ss).kind = true) (hu : exemptLast cx.marker ss = false)
    (hc : clearWayLast ss = true) :
    ∃ ss', b' = .mk .block asb ss' ∧ Reached env cx.ident cx.marker (lastOf ss) (lastOf ss') := by
  obtain ⟨h1, h2, h3, h3'⟩ := reaches_last hb hu hc fun m _ => reaches hroot hv m
  cases hr with
  | cons g1 g2 =>
    cases g2
    cases g1 with
    | oneExpr h => cases h
    | oneArm h => cases h
    | oneLocal h => cases h
    | oneLocalChild h => cases h
    | oneInert h => cases h
    | oneBlock _ _ _ h =>
      simp only [Node.sub, Kind.isOpaque, Bool.false_eq_true, if_false, Node.rebuild] at h ⊢
      refine ⟨_, rfl, ?_⟩
      obtain ⟨sc1, semi1, cx1, cx2, hf, h5⟩ := h.way_last rfl (by
        rw [h1, (childExpr_top cx (lastOf ss)).1]; exact hb) h2
        fun m _ sc semi cx cx' n' => Run.way m sc semi cx cx' n'
      rw [h1] at h5
      exact ⟨sc1, semi1, cx, cx1, cx2, hf, hroot, hv, rfl, rfl, hn, h3,
        clearWayLast_lastOf hb hc fun m _ => clearWay_resultOf m, h3' ▸ hcl, h5⟩

theorem onStmt_reached {env : Env} {cx cx' : Cx} {n out : Node}
    (hr : Run env (onStmt cx n cx' out)) (hf : Fresh cx) (hroot : cx.root = true)
    (ha : cx.args ≠ []) (hx : isExprNode n = false)
    (hb : isBranching (resultOf (startOf n)).kind = true)
    (hu : exempt cx.marker (startOf n) = false) (hc : clearWay (startOf n) = true)
    (hs : shaped n = true) (hJ : (jobOf cx.ident cx.marker n).branches = true) :
    Reached env cx.ident cx.marker (resultOf (startOf n)) (resultIn out) := by
  have hbody : ∀ e, shaped e = true → shaped (bodyOf e) = true := by
    intro e h
    unfold bodyOf
    split
    · simpa [shaped, shapedL] using h
    · exact h
  cases hr with
  | @stmtExpr semi _ e _ e' as h =>
    cases semi with
    | true => cases hJ
    | false =>
      simp only [shaped, shapedL, Bool.and_true, Bool.true_and] at hs
      exact (onExpr_reached h hf hroot ha hb hu hc (hbody _ hs) hJ).1
  | stmtLocalDummy h1 h2 =>
    have := (localAnalysis_kept h1).args
    simp [Cx.isDummy, this, ha] at h2
  | @stmtLocal _ p cx1 p1 e _ e' as els h1 h2 h3 =>
    simp only [shaped, shapedL, Bool.true_and, Bool.and_eq_true] at hs
    obtain ⟨m1, m2, m3⟩ := localAnalysis_modes h1
    have hk := localAnalysis_kept h1
    have hv : cx1.visitLast = true := by
      simp [Cx.visitLast, m1, m2, hf.lastMode, hf.mode]
    rw [← hk.ident, ← hk.marker]
    exact (build_reached h3 (by rw [hk.root]; exact hroot) hv (by rw [hk.args]; exact ha)
      (by rw [m3]; exact hf.variants) hb (by rw [hk.marker]; exact hu) hc (hbody _ hs.1)
      (by rw [hk.ident, hk.marker]; exact hJ)).1
  | stmtFnDummy h1 h2 =>
    have := (fnAnalysis_kept h1).args
    simp [Cx.isDummy, this, ha] at h2
  | @stmtFnExit _ _ _ ss cx1 _ _ _ _ h1 _ _ h3 =>
    have h4 := (childLast_same ss cx1).args
    rw [analysisExit_args h3, (fnAnalysis_kept h1).args] at h4
    exact absurd h4.symm ha
  | @stmtFn _ ret asb ss cx1 _ b' name as h1 h2 h3 h4 h5 h6 h7 =>
    have hk := fnAnalysis_kept h1
    simp only [startOf, targetOf, bodyOf, resultOf] at hb hu hc
    rw [exempt.eq_def] at hu
    rw [clearWay.eq_def] at hc
    simp only [Bool.or_eq_false_iff] at hu
    simp only [Bool.and_eq_true] at hc
    have hd := fnAnalysis_does (env := env) (ret := ret) (b := .mk .block asb ss) hroot hf
      (by simpa [shaped, shapedL] using hs)
    rw [h1] at hd
    have hv := fnAnalysis_variants (env := env) (cx := cx) (ret := ret) (b := .mk .block asb ss)
    rw [h1, hf.variants] at hv
    obtain ⟨ss', rfl, h8⟩ := fn_reached h5 h6 hd.root (hd.branches.trans hJ) hv hb
      (by rw [hk.marker]; exact hu.2) hc.2
    rw [hk.ident, hk.marker] at h8
    have h9 : resultOf (startOf (.mk (.iFn name ret) as [.mk .block asb ss])) = lastOf ss := by
      simp only [startOf, targetOf, bodyOf, resultOf]
    have h10 : resultIn (builtFn cx' (.mk (.iFn name ret) as [.mk .block asb ss'])) = lastOf ss' := by
      unfold builtFn
      split
      · simp only [resultIn, targetOf, resultOf]
      · simp only [resultIn, targetOf, resultOf]
        cases ss' with
        | nil => rfl
        | cons _ _ => simp only [lastOf]
    rw [h9, h10]
    exact h8
  | stmtInert h1 h2 h3 h4 =>
    exfalso
    have ht : startOf n = bodyOf n := by
      unfold startOf targetOf
      split
      · exact absurd rfl (h3 _ _ _)
      · exact absurd rfl (h2 _)
      · exact absurd rfl (h4 _ _ _ _ _)
      · rfl
    rw [ht] at hb
    obtain ⟨k, as, ks⟩ := n
    have : bodyOf (.mk k as ks) = .mk k as ks := by
      unfold bodyOf
      split
      · rename_i heq; cases heq; cases hx
      · rfl
    rw [this] at hb
    have := isExpr_of_branching hb
    rw [← isExprNode_eq, hx] at this
    cases this

/-- The expression in result position of a successful expansion. -/
theorem reached {env : Env} {fuel h : Nat} {toks : List Tok} {traits : List Path}
    {marker : Option Ident} (ha : IsArgs toks traits marker) (ht : traits ≠ []) {input : Input}
    {n out : Node}
    (hin : input = .expr n ∧ isExprNode n = true ∨ input = .stmt n ∧ isExprNode n = false)
    {en : Ident} (hen : en = "__Enum" ++ toString h) {m : String} (hm : m = marker.getD "marker")
    (hrun : autoEnum env fuel h toks input = .code out) (hs : shaped n = true)
    (hJ : (jobOf en m n).branches = true) (hb : isBranching (resultOf (startOf n)).kind = true)
    (hu : exempt m (startOf n) = false) (hc : clearWay (startOf n) = true) :
    Reached env en m (resultOf (startOf n)) (resultIn out) := by
  obtain ⟨cx, cx', hnew, _, _, hr⟩ := code_run hrun
  obtain ⟨_, p1, p2, p3, _, p4, p5, p6, p7, _⟩ := new_args hnew
  have hf := new_fresh hnew
  rw [(parseArgs_iff _ _ _).mpr ha] at p1
  cases p1
  have e1 : cx.ident = en := by rw [p2, hen]; rfl
  have e2 : cx.marker = m := by rw [p3, hm]; rfl
  subst e1 e2
  rcases hin with ⟨rfl, hx⟩ | ⟨rfl, hx⟩ <;> rcases hr with ⟨n0, hi, hr⟩ | ⟨n0, hi, hr⟩ <;> cases hi
  · have hto : ∀ e, isExprNode e = true → targetOf e = e := by
      intro e he
      rw [isExprNode_eq] at he
      unfold targetOf
      split <;> first | rfl | cases he
    have hx' : ∀ e, isExprNode e = true → resultIn e = enterClosure (resultOf e) := by
      intro e he
      unfold resultIn
      split
      · cases he
      · rw [hto _ he]
    have hj : jobOf cx.ident cx.marker n = jobOfExpr cx.ident cx.marker n := by
      unfold jobOf
      split
      · cases hx
      · cases hx
      · rw [hto _ hx]
    unfold startOf at *
    rw [hto _ hx] at *
    rw [hj] at hJ
    have hs' : shaped (bodyOf n) = true := by
      unfold bodyOf
      split
      · simpa [shaped, shapedL] using hs
      · exact hs
    obtain ⟨h1, h2⟩ := onExpr_reached hr hf p4 ht hb hu hc hs' hJ
    rw [hx' _ h2]
    exact h1
  · exact onStmt_reached hr hf p4 ht hx hb hu hc hs hJ

end AutoEnums
