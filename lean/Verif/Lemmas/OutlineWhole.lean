import Verif.Lemmas.OutlineRun

/-! # Cutting out inner attributes: the whole input -/

namespace AutoEnums

open Judg Spec

variable {en : Ident}

/-! ## The outline -/

theorem kidKinds_of {k : Kind} {ks : List Node} (h : kidsOk k ks = true) : KidKinds k ks := by
  constructor
  · rintro b rfl e he
    match ks, h with
    | [x], h =>
      simp only [List.mem_singleton] at he
      subst he
      rw [← isExprNode_eq]
      exact h
  · rintro rfl e he
    obtain ⟨c, asb, ss, rfl | ⟨l, as2, ss2, rfl⟩ | ⟨as2, ks2, rfl⟩⟩ := kidsOk_if h
    · simp at he
    · simp only [List.drop_succ_cons, List.drop_zero, List.mem_singleton] at he; subst he; simp [Node.kind]
    · simp only [List.drop_succ_cons, List.drop_zero, List.mem_singleton] at he; subst he; simp [Node.kind]

theorem apartLet_inv {n : Node} (h : apartLet n = true) :
    ∃ p as ks, n = .mk (.sLocal p) as ks ∧ anyAttr as NAME = true := by
  unfold apartLet at h
  split at h
  · rename_i p as ks
    refine ⟨p, as, ks, rfl, ?_⟩
    rw [← h]
    unfold anyAttr
    congr 1
    funext a
    exact (named_iff _ _).symm
  · cases h

theorem outline_mk (k : Kind) (as : List Attr) (ks : List Node) :
    outline (.mk k as ks) = if apart k as then hole else if hidesCode k then .mk k as ks
      else .mk k as (outlineL k.isBlockLike ks) := by rw [outline]

theorem cutL_of {blk : Bool} : ∀ (ns : List Node), (∀ x ∈ ns, hasAttr NAME (outline x) = false →
    grammatical (outline x) = true → Cut en x (outline x)) → hasAttrL NAME (outlineL blk ns) = false →
    grammaticalL (outlineL blk ns) = true → CutL en blk ns (outlineL blk ns) := by
  intro ns
  induction ns with
  | nil => intro _ _ _; rw [outlineL]; exact .nil
  | cons n ns ih =>
    intro hx ha hg
    rw [outlineL] at ha hg ⊢
    rw [hasAttrL_cons, Bool.or_eq_false_iff] at ha
    rw [grammaticalL, Bool.and_eq_true] at hg
    have hrest := ih (fun x h => hx x (by simp [h])) ha.2 hg.2
    by_cases hc : (blk && !ns.isEmpty && apartLet n) = true
    · rw [if_pos hc]
      simp only [Bool.and_eq_true, Bool.not_eq_true'] at hc
      obtain ⟨⟨rfl, hne⟩, hl⟩ := hc
      obtain ⟨p, as, ks, rfl, hn⟩ := apartLet_inv hl
      refine .letHole hn ?_ hrest
      intro h0
      have := hrest.length
      rw [h0] at this
      cases ns with
      | nil => cases hne
      | cons => cases this
    · rw [if_neg hc] at ha hg ⊢
      exact .cons (hx n (by simp) ha.1 hg.1) hrest

theorem cut_outline : ∀ (n : Node), hasAttr NAME (outline n) = false → grammatical (outline n) = true →
    Cut en n (outline n) := by
  intro n
  induction n using Node.ind with
  | h k as ks ih =>
  intro ha hg
  rw [outline_mk] at ha hg ⊢
  split
  · rename_i h; exact .hole h
  · rename_i h
    rw [if_neg h] at ha hg
    split
    · rename_i hh
      rw [if_pos hh, hasAttr_mk, Bool.or_eq_false_iff] at ha
      exact .inert (by rw [← hidesCode_eq]; exact hh) ha.1
    · rename_i hh
      rw [if_neg hh] at ha hg
      have hh : hidesCode k = false := by simpa using hh
      have ho : k.isOpaque = false := by rw [← hidesCode_eq]; exact hh
      rw [hasAttr_mk, Bool.or_eq_false_iff, ho] at ha
      have hg := grammatical_mk hg hh
      exact .node ho rfl ha.1 (kidKinds_of hg.1) (cutL_of ks (fun x hx => ih x hx) (by simpa using ha.2) hg.2)

theorem fills_alike : ∀ (s n t : Node), Fills en n s → Alike en s t → Fills en n t := by
  intro s
  induction s using Node.ind with
  | h k as ks ih =>
  intro n t hf ha
  have hrig : ∀ (k0 : Kind), (∀ p, k0 ≠ .ePath false p) → Alike en (.mk k0 [] []) t → t = .mk k0 [] [] := by
    intro k0 hk h
    obtain ⟨l, rfl, hl⟩ := h.symm.rigid hk
    rw [alikeL_nil hl]
  cases hf with
  | hole hx => rw [hrig _ (by simp) ha]; exact .hole hx
  | @node k' _ ks' _ _ hb hl =>
    obtain ⟨k1, ks1, rfl, hb1, hl1⟩ := ha.symm.inv
    refine .node (hb.trans hb1.symm) ?_
    clear hb hb1 ha hrig
    revert hl hl1
    induction ks generalizing ks' ks1 with
    | nil => intro hl hl1; cases hl; rw [alikeL_nil hl1]; exact .nil
    | cons s ss ih2 =>
      intro hl hl1
      obtain ⟨s1, ss1, rfl, a1, a2⟩ := alikeL_inv hl1
      cases hl with
      | cons f1 f2 =>
        exact .cons (ih _ (by simp) _ _ f1 a1.symm) (ih2 (fun x hx => ih x (by simp [hx])) _ f2 a2)
      | letHole f2 =>
        have : s1 = letHole := by
          obtain ⟨l, rfl, hl⟩ := a1.rigid (by simp)
          rw [alikeL_nil hl]
          rfl
        subst this
        exact .letHole (ih2 (fun x hx => ih x (by simp [hx])) _ f2 a2)

/-! ## Expressions -/

theorem target_outer {env : Env} {J : Job} {cx cx' : Cx} {e e' : Node}
    (h : Run env (target cx e cx' e')) (hJ : Does J cx)
    (ha : (childExpr cx e).1.analysisExit env = false)
    (he : isExprNode (outline e) = true) (hf : Fine J [] J.start (outline e)) :
    Fills J.en e' (treat J {} [] J.start (outline e)) ∧ Same cx cx' := by
  have hs := h.keeps
  cases h with
  | target h1 h2 h3 =>
    refine ⟨?_, hs⟩
    have hi := hJ.ident
    obtain ⟨g1, g2⟩ := childExpr_cut _ _ cx cx (twin_refl _) hi (cut_outline (en := J.en) e hf.free hf.gram)
    obtain ⟨c', s', r, f, t⟩ := (h3.cuts (en := J.en)) rfl _ _ g1 g2 ((childExpr_same _ _).ident.trans hi)
    have hp := target_pend hJ he hf
    have hR : Ready J {} {} (childExpr cx (outline e)).1 := ⟨hJ.same (childExpr_same _ _), rfl, rfl, rfl⟩
    exact fills_alike _ _ _ f (r.treats J [] [] J.start {} _ hR hf hp).1
  | targetExit h1 _ _ =>
    rw [ha] at h1
    cases h1

theorem expandExpr_outer {env : Env} {rec : Rec} (hr : RunRec env rec) {cx : Cx} {e : Node}
    (h : Clean (expandExpr env rec cx e).1) (hroot : cx.root = true) (hm : cx.mode = .default)
    (ha : Goes env cx e) (ho : ordinaryOuterExpr cx.ident cx.marker (cx.lastMode == .never) e = true) :
    Fills cx.ident (expandExpr env rec cx e).2
      (treatOuterExpr cx.ident cx.marker (cx.lastMode == .never) e) ∧
    Kept cx (expandExpr env rec cx e).1 ∧ (expandExpr env rec cx e).1.traits = cx.traits := by
  have hv : cx.visitLast = !(cx.lastMode == .never) := by
    cases h : cx.lastMode <;> simp [Cx.visitLast, hm, h] <;> rfl
  rcases expandExpr_run hr cx e h with ⟨i, as, b, b', hl, rfl, h1, h2⟩ | ⟨hne, h1⟩
  · have hlm : (cx.lastMode == VisitLastMode.never) = false := by rw [hl] at hv; simpa using hv.symm
    rw [hlm] at ho ⊢
    rw [h2]
    simp only [ordinaryOuterExpr, Bool.and_eq_true] at ho
    obtain ⟨f1, f2⟩ := Fine.of ho.2
    obtain ⟨g1, g3⟩ := target_outer h1 (closure_does hroot hl ho.1) (ha _ _ _ rfl hl) f1 f2
    have hen : (closureJob cx.ident cx.marker b).en = cx.ident := by
      unfold closureJob; split <;> rfl
    rw [hen] at g1
    refine ⟨.node rfl (.cons g1 .nil), ?_, g3.traits⟩
    exact Kept.trans (b := closureCx cx b) ⟨rfl, rfl, rfl, rfl, rfl, List.prefix_refl _⟩ g3.toKept
  · have hx : ordinaryOuterExpr cx.ident cx.marker (cx.lastMode == .never) e =
        ordinaryIn (exprJob cx.ident cx.marker (cx.lastMode == .never))
          (exprJob cx.ident cx.marker (cx.lastMode == .never)).start (outline e) ∧
        treatOuterExpr cx.ident cx.marker (cx.lastMode == .never) e =
          treat (exprJob cx.ident cx.marker (cx.lastMode == .never)) {} []
            (exprJob cx.ident cx.marker (cx.lastMode == .never)).start (outline e) := by
      unfold ordinaryOuterExpr treatOuterExpr
      generalize (cx.lastMode == VisitLastMode.never) = semi at *
      cases semi with
      | true => exact ⟨rfl, rfl⟩
      | false =>
        have hne := hne hv
        constructor
        · split
          · exact absurd rfl (hne _ _ _)
          · rfl
        · split
          · exact absurd rfl (hne _ _ _)
          · rfl
    rw [hx.1] at ho
    rw [hx.2]
    obtain ⟨f1, f2⟩ := Fine.of ho
    obtain ⟨g1, g3⟩ := target_outer h1 (expr_does hroot hm) (default_noExit hm e) f1 f2
    exact ⟨g1, g3.toKept, g3.traits⟩

/-! ## Functions -/

theorem many_block {env : Env} {sc : Scope} {cx cx' : Cx} {asb : List Attr} {ss : List Node} {b' : Node}
    (h : Run env (one .visitor sc cx (.mk .block asb ss) cx' b')) :
    ∃ ss', b' = .mk .block asb ss' ∧ Run env (many .visitor sc cx ss cx' ss') := by
  generalize hn : Node.mk .block asb ss = n at h
  cases h with
  | oneBlock g1 g2 g3 g4 =>
    subst hn
    exact ⟨_, by simp only [Node.rebuild, Kind.isOpaque]; rfl, by simpa [Node.sub, Kind.isOpaque] using g4⟩
  | oneExpr hx _ => subst hn; simp [Node.kind, Kind.isExpr] at hx
  | oneStmt _ => cases hn
  | oneArm hx _ => subst hn; simp [Node.kind] at hx
  | oneLocal hx _ _ => subst hn; simp [Node.kind] at hx
  | oneLocalChild hx => subst hn; simp [Node.kind] at hx
  | oneInert hx => subst hn; simp [Node.kind, Kind.isStmt] at hx

theorem body_outer {env : Env} {J : Job} {cx cx' : Cx} {asb : List Attr} {ss : List Node} {b' : Node}
    (hd : Does J cx) (ho : ordinaryBody J (outlineL true ss) = true)
    (h : Run env (one .visitor {} (childLast cx ss).1 (.mk .block asb (childLast cx ss).2) cx' b')) :
    ∃ ss', b' = .mk .block asb ss' ∧ FillsL J.en ss' (treatBody J (outlineL true ss)) := by
  unfold ordinaryBody at ho
  simp only [Bool.and_eq_true, Bool.not_eq_true'] at ho
  obtain ⟨⟨⟨⟨⟨h1, h2⟩, h3⟩, h4⟩, h5⟩, h6⟩ := ho
  obtain ⟨ss', rfl, hm⟩ := many_block h
  refine ⟨ss', rfl, ?_⟩
  have hi := hd.ident
  obtain ⟨g1, g2⟩ := childLast_cut (twin_refl cx) hi
    (cutL_of (en := J.en) ss (fun x _ => cut_outline x) h3 h4)
  obtain ⟨c', s', r, f, t⟩ := (hm.cuts (en := J.en)) rfl _ _ _ g1 g2 ((childLast_same _ _).ident.trans hi)
  have hR : Ready J {} {} (childLast cx (outlineL true ss)).1 := ⟨hd.same (childLast_same _ _), rfl, rfl, rfl⟩
  have hp := body_pend hd h2 h3 h4 h5
  have hal := (r.treats J [] (fun _ => []) (bodyRole J (outlineL true ss).length) {} _ hR ⟨h3, h4, h5, h6⟩ hp).1
  have := fills_alike (en := J.en) (.mk .block [] s') (.mk .block [] ss')
    (.mk .block [] (treatBody J (outlineL true ss))) (.node rfl f) (.node _ _ hal)
  cases this with
  | node _ h => exact h

/-! ## Before and after the enum is built -/

theorem fillsL_refl : ∀ l : List Node, FillsL en l l
  | [] => .nil
  | n :: l => .cons (fills_refl n) (fillsL_refl l)

/-- What is known before the enum is built. -/
structure Filled (env : Env) (cx : Cx) (n : Node) (r : Cx × Node) : Prop where
  fills : Fills cx.ident r.2 (retype env.typeAnalysis cx.args (treatOuter cx.ident cx.marker n))
  kept : Kept cx r.1
  traits : r.1.traits = inferredFor env.typeAnalysis cx.args n

theorem fn_outer {env : Env} {rec : Rec} (hr : RunRec env rec) {cx : Cx} {name : String}
    {ret : Option Ty} {as asb : List Attr} {ss : List Node} (hroot : cx.root = true) (hf : Fresh cx)
    (ho : ordinaryOuter cx.ident cx.marker (.mk (.iFn name ret) as [.mk .block asb ss]) = true)
    (hc : Clean (core env rec cx (.mk (.iFn name ret) as [.mk .block asb ss])).1) :
    (∃ ss', (core env rec cx (.mk (.iFn name ret) as [.mk .block asb ss])).2 =
      .mk (.iFn name ret) as [.mk .block asb ss']) ∧
    Filled env cx (.mk (.iFn name ret) as [.mk .block asb ss])
      (core env rec cx (.mk (.iFn name ret) as [.mk .block asb ss])) := by
  simp only [ordinaryOuter, Bool.and_eq_true] at ho
  simp only [core] at hc ⊢
  obtain ⟨_, ks, h1, h2⟩ := walk_run hr _ _ _ _ hc
  have hd := fnAnalysis_does (env := env) (ret := ret) (b := .mk .block asb ss) hroot hf
    (by simpa [shaped] using ho.1)
  have ht := fnAnalysis_traits (env := env) hf name ret as [.mk .block asb ss] (.mk .block asb ss)
  have hk := fnAnalysis_kept (env := env) (cx := cx) (ret := ret) (b := .mk .block asb ss) rfl
  generalize fnAnalysis env cx ret (.mk .block asb ss) = cx1 at *
  simp only [Node.sub, Kind.isOpaque, Bool.false_eq_true, if_false] at h1
  simp only [Node.rebuild, Kind.isOpaque, Bool.false_eq_true, if_false] at h2
  generalize walk (rec .visitor {}) (childLast cx1 ss).1
    (.mk (.iFn name ret) as [.mk .block asb (childLast cx1 ss).2]) = r at *
  cases h1 with
  | cons g1 g2 =>
    cases g2
    have hm : Same cx1 r.1 := (childLast_same ss cx1).trans g1.keeps
    obtain ⟨ss', rfl, ha⟩ := body_outer hd ho.2 g1
    refine ⟨⟨ss', h2⟩, ?_, hk.trans hm.toKept, hm.traits.trans ht.1⟩
    rw [h2]
    have hen : (fnJob cx.ident cx.marker ret (.mk .block asb ss)).en = cx.ident := by
      rw [← hd.ident]; exact hk.ident
    rw [hen] at ha
    exact .node rfl (.cons (.node rfl ha) .nil)

theorem core_outer {env : Env} {rec : Rec} (hr : RunRec env rec) (hg : GoodRec env rec) {cx : Cx} {n : Node}
    (hroot : cx.root = true) (hf : Fresh cx) (ha : Active env cx n)
    (ho : ordinaryOuter cx.ident cx.marker n = true) (hc : Clean (core env rec cx n).1) :
    Filled env cx n (core env rec cx n) := by
  unfold ordinaryOuter at ho
  split at ho
  · rename_i semi as e
    simp only [core] at hc ⊢
    have hl : ((if semi then { cx with lastMode := .never } else cx).lastMode == .never) = semi := by
      cases semi
      · simp [hf.lastMode]
      · rfl
    have hk : Kept cx (if semi then { cx with lastMode := .never } else cx) := by
      cases semi <;> exact ⟨rfl, rfl, rfl, rfl, rfl, List.prefix_refl _⟩
    have h3 : (if semi then { cx with lastMode := .never } else cx).mode = .default := by
      cases semi <;> exact hf.mode
    have h4 : (if semi then { cx with lastMode := .never } else cx).traits = [] := by
      cases semi <;> exact hf.traits
    generalize (if semi then { cx with lastMode := .never } else cx) = cx1 at *
    obtain ⟨g1, g3, g4⟩ := expandExpr_outer hr hc (hk.root.trans hroot) h3
      (.of_args (by rw [hk.args]; exact ha) e) (by rw [hl, hk.ident, hk.marker]; exact ho)
    rw [hl, hk.ident, hk.marker] at g1
    exact ⟨.node rfl (.cons g1 .nil), hk.trans g3, by rw [g4, h4]; simp [inferredFor, annotationOf]⟩
  · rename_i p as e els
    simp only [core] at hc ⊢
    obtain ⟨h1, h2, h3, h4, h5⟩ := localAnalysis_traits (env := env) hf p as
      (treatOuterExpr cx.ident cx.marker false e :: els)
    have hk : Kept cx (localAnalysis env cx p).1 := localAnalysis_kept (p1 := (localAnalysis env cx p).2) rfl
    simp only [Active] at ha
    generalize localAnalysis env cx p = r at *
    have hl : (r.1.lastMode == .never) = false := by rw [h5, hf.lastMode]; rfl
    obtain ⟨g1, g3, g4⟩ := expandExpr_outer hr hc (hk.root.trans hroot) (h4.trans hf.mode)
      ha.2 (by rw [hl, hk.ident, hk.marker]; exact ho)
    rw [hl, hk.ident, hk.marker] at g1
    refine ⟨?_, hk.trans g3, g4.trans h1⟩
    simp only [treatOuter]
    rw [← h2]
    exact .node rfl (.cons g1 (fillsL_refl _))
  · rename_i name ret as asb ss
    exact (fn_outer hr hroot hf (by unfold ordinaryOuter; exact ho) hc).2
  · rename_i h1 h2 h3
    simp only [Bool.and_eq_true] at ho
    have hco : core env rec cx n = expandExpr env rec cx n := by
      unfold core; split <;> first | rfl | simp [isExprNode, Node.kind] at ho
    have hti : treatOuter cx.ident cx.marker n = treatOuterExpr cx.ident cx.marker false n := by
      unfold treatOuter; split <;> first | rfl | simp [isExprNode, Node.kind] at ho
    rw [hco] at hc ⊢
    have hl : (cx.lastMode == .never) = false := by rw [hf.lastMode]; rfl
    have ha : cx.args ≠ [] := by
      unfold Active at ha; split at ha <;> first | exact ha | simp [isExprNode, Node.kind] at ho
    obtain ⟨g1, g3, g4⟩ := expandExpr_outer hr hc hroot hf.mode (.of_args ha n) (by rw [hl]; exact ho.2)
    rw [hl] at g1
    have hx := expandExpr_expr hg hf hc.1 (by rw [← isExprNode_eq]; exact ho.1)
    refine ⟨?_, g3, ?_⟩
    · rw [hti]
      have hx' : (treatOuterExpr cx.ident cx.marker false n).kind.isExpr = true := by
        generalize (expandExpr env rec cx n).2 = a at *
        generalize treatOuterExpr cx.ident cx.marker false n = b at *
        cases g1 with
        | hole _ => rfl
        | node hb _ => rw [← hx]; exact (isExpr_blur hb).symm
      unfold retype
      split
      · rename_i heq
        rw [heq] at hx'
        exact absurd hx' (by simp [Node.kind, Kind.isExpr])
      · exact g1
    · rw [g4, hf.traits]
      cases n with
      | mk k as ks =>
      unfold inferredFor
      have : annotationOf (k, as) = none := by
        unfold annotationOf
        split <;> first | rfl | (rename_i heq; cases heq; simp [isExprNode, Node.kind] at ho)
      dsimp only
      rw [this]
      simp

theorem expandBuild_none (env : Env) (rec : Rec) (cx : Cx) (e : Node)
    (h : (expandExpr env rec cx e).1.build.2 = none) :
    (expandBuild env rec cx e).2 = (expandExpr env rec cx e).2 := by
  unfold expandBuild
  dsimp only
  split
  · rename_i cx' item hb
    rw [hb] at h
    cases h
  · rfl

theorem core_place {env : Env} {fuel : Nat} {cx : Cx} {input : Input} {n : Node} {r : Cx × Node}
    (hp : Passed input n) (ho : ordinaryOuter cx.ident cx.marker n = true) (ha : Active env cx n)
    (hroot : cx.root = true) (hf : Fresh cx)
    (hex : expandInput env fuel cx input = some r) :
    r.1 = (core env (visit env fuel) cx n).1.build.1 ∧
    (Clean (core env (visit env fuel) cx n).1 →
      (∀ g, (core env (visit env fuel) cx n).1.build.2 = some g →
        r.2 = placeEnum g (core env (visit env fuel) cx n).2) ∧
      ((core env (visit env fuel) cx n).1.build.2 = none → r.2 = (core env (visit env fuel) cx n).2)) := by
  have hrun := visit_run env fuel
  have hgood := visit_good env fuel
  generalize hrec : visit env fuel = rec at *
  rcases hp with ⟨rfl, he⟩ | ⟨rfl, he⟩
  · simp only [expandInput, hrec, Option.some.injEq] at hex
    subst hex
    have hc : core env rec cx n = expandExpr env rec cx n := by
      unfold core; split <;> first | rfl | simp [isExprNode, Node.kind] at he
    rw [hc]
    have ha : cx.args ≠ [] := by
      unfold Active at ha; split at ha <;> first | exact ha | simp [isExprNode, Node.kind] at he
    simp only [expandParentExpr, Bool.false_eq_true, if_false, notDummy ha]
    obtain ⟨h1, h2⟩ := expandBuild_core env rec cx n
    refine ⟨h1, fun hcl => ⟨fun g hg => ?_, expandBuild_none env rec cx n⟩⟩
    rw [h2 g hg, placeEnum_expr (expandExpr_expr hgood hf hcl.1 (by rw [← isExprNode_eq]; exact he))]
  · simp only [expandInput, hrec, Option.some.injEq] at hex
    subst hex
    unfold ordinaryOuter at ho
    split at ho
    · rename_i semi as e
      simp only [core, expandParentStmt, expandParentExpr]
      have hk : (if semi then { cx with lastMode := .never } else cx).args = cx.args := by
        cases semi <;> rfl
      generalize (if semi then { cx with lastMode := .never } else cx) = cx1 at *
      rw [if_neg (by rw [notDummy (by rw [hk]; exact ha)]; simp)]
      obtain ⟨h1, h2⟩ := expandBuild_core env rec cx1 e
      exact ⟨h1, fun hcl => ⟨fun g hg => by rw [h2 g hg]; rfl,
        fun hn => by rw [expandBuild_none env rec cx1 e hn]⟩⟩
    · rename_i p as e els
      simp only [core, expandParentStmt, expandParentLocal]
      simp only [Active] at ha
      generalize localAnalysis env cx p = r at *
      rw [if_neg (by rw [ha.1]; simp)]
      obtain ⟨h1, h2⟩ := expandBuild_core env rec r.1 e
      exact ⟨h1, fun hcl => ⟨fun g hg => by dsimp only; rw [h2 g hg]; rfl,
        fun hn => by dsimp only; rw [expandBuild_none env rec r.1 e hn]⟩⟩
    · rename_i name ret as asb ss
      have hk := fnAnalysis_kept (env := env) (cx := cx) (ret := ret) (b := .mk .block asb ss) rfl
      have hfc := fn_outer (name := name) (ret := ret) (as := as) (asb := asb) (ss := ss) hrun
        hroot hf (by unfold ordinaryOuter; exact ho)
      simp only [core] at hfc
      simp only [core, expandParentStmt, expandParentFn]
      simp only [Bool.and_eq_true] at ho
      have hne : ss.isEmpty = false := by
        have := ho.2
        simp only [ordinaryBody, Bool.and_eq_true, Bool.not_eq_true'] at this
        have := this.1.1.1.1.1
        cases ss with
        | nil => rw [outlineL] at this; cases this
        | cons => rfl
      simp only [Active] at ha
      generalize fnAnalysis env cx ret (.mk .block asb ss) = cx1 at *
      rw [if_neg (by rw [ha.1]; simp), hne]
      simp only [Bool.false_eq_true, if_false]
      generalize childLast cx1 ss = c at *
      rw [if_neg (by rw [ha.2]; simp)]
      generalize walk (rec .visitor {}) c.1 (.mk (.iFn name ret) as [.mk .block asb c.2]) = w at *
      split
      · rename_i cx2 item k as2 asb2 ss2 hb hw
        rw [hb]
        refine ⟨rfl, fun hcl => ⟨fun g hg => ?_, fun hn => nomatch hn⟩⟩
        cases hg
        obtain ⟨⟨ss', h1⟩, _⟩ := hfc hcl
        rw [h1] at hw
        cases hw
        rw [h1]
        rfl
      · rename_i cx2 item hb hw
        rw [hb]
        refine ⟨rfl, fun hcl => ⟨fun g hg => ?_, fun hn => rfl⟩⟩
        obtain ⟨⟨ss', h1⟩, _⟩ := hfc hcl
        exact (hw _ _ _ _ _ h1 hg).elim
    · simp [he] at ho

/-! ## The names of the variants -/

theorem T.variantNames {env : Env} {b : Bool} {cx cx' : Cx} {n n' : Node} (h : T env b cx n cx' n')
    (hb : b = false) (hn : cx.variants = Spec.variantNames cx.variants.length) :
    cx'.variants = Spec.variantNames cx'.variants.length := by
  induction h with
  | refl => exact hn
  | trans _ _ ih1 ih2 => exact ih2 rfl (ih1 rfl hn)
  | book h => rw [h.variants]; exact hn
  | kid _ _ _ ih => exact ih rfl hn
  | wrapVal => exact names_next _ _ hn
  | wrapArm => exact names_next _ _ hn
  | wrapBlock => exact names_next _ _ hn
  | fill => exact names_next _ _ hn
  | marker => exact names_next _ _ hn
  | tryOp => exact names_next _ _ hn
  | dropAttr => exact hn
  | unmark => exact hn
  | badMark => exact hn
  | dropRec => exact hn
  | child _ _ _ _ _ _ hj ih1 => rw [(join_core hj).variants]; exact ih1 rfl hn
  | exPlain => cases hb
  | exErr => cases hb
  | exTwo => cases hb
  | exExpr => cases hb
  | exKid => cases hb
  | exPat => cases hb
  | exFn => cases hb
  | exSetup => cases hb

/-! ## Inputs without inner attributes -/

theorem mem_attrsL {a : Attr} {x : Node} : ∀ {ks : List Node}, x ∈ ks → a ∈ allAttrs x → a ∈ attrsL ks
  | y :: ks, hx, ha => by
    rw [attrsL_cons, List.mem_append]
    cases hx with
    | head => exact .inl ha
    | tail _ hx => exact .inr (mem_attrsL hx ha)

theorem outline_same : ∀ (n : Node), (∀ a ∈ allAttrs n, named "auto_enum" a = false) → outline n = n := by
  intro n
  induction n using Node.ind with
  | h k as ks ih =>
  intro ha
  have h1 : as.any (named "auto_enum") = false := by
    rw [List.any_eq_false]
    intro a hm
    rw [ha a (by rw [allAttrs_mk]; simp [hm])]
    simp
  have h2 : apart k as = false := by
    unfold apart; split <;> simp [h1]
  rw [outline_mk, h2]
  simp only [Bool.false_eq_true, if_false]
  split
  · rfl
  · congr 1
    have hk : ∀ x ∈ ks, ∀ a ∈ allAttrs x, named "auto_enum" a = false :=
      fun x hx a h => ha a (by
        rw [allAttrs_mk, List.mem_append]
        exact .inr (mem_attrsL hx h))
    clear ha h1 h2
    generalize k.isBlockLike = blk
    induction ks with
    | nil => rw [outlineL]
    | cons x ks ih2 =>
      rw [outlineL, ih x (by simp) (hk x (by simp)), ih2 (fun y hy => ih y (by simp [hy])) (fun y hy => hk y (by simp [hy]))]
      rw [if_neg]
      intro h
      simp only [Bool.and_eq_true] at h
      obtain ⟨p, as, ks, rfl, hn⟩ := apartLet_inv h.2
      obtain ⟨a, hm, hn⟩ := List.any_eq_true.mp hn
      have := hk (.mk (.sLocal p) as ks) (by simp) a (by rw [allAttrs_mk]; simp [hm])
      rw [named_iff] at this
      simp only [NAME] at hn
      rw [hn] at this
      cases this

theorem outlineL_same {ss : List Node} (h : ∀ a ∈ attrsL ss, named "auto_enum" a = false) :
    outlineL true ss = ss := by
  have := outline_same (.mk .block [] ss) (by rw [allAttrs_mk]; exact h)
  rw [outline_mk] at this
  simp only [apart, isExpression, Bool.false_and, Bool.false_eq_true, if_false, hidesCode, Kind.isBlockLike,
    Node.mk.injEq, true_and] at this
  exact this

theorem outerExpr_same {m : String} {semi : Bool} {e : Node} (h : ∀ a ∈ allAttrs e, named "auto_enum" a = false) :
    ordinaryOuterExpr en m semi e = ordinaryExpr en m semi e ∧
    treatOuterExpr en m semi e = treatExpr en m semi e := by
  have h' : ∀ k as b, e = .mk k as [b] → outline b = b := by
    rintro k as b rfl
    exact outline_same b fun a ha => h a (by rw [allAttrs_mk]; simp [attrsL_cons, ha])
  unfold ordinaryOuterExpr ordinaryExpr treatOuterExpr treatExpr
  have h0 := outline_same e h
  constructor
  · split
    · rw [h' _ _ _ rfl]
    · rename_i x
      rw [h0]
      split
      · exact (x _ _ _ rfl rfl).elim
      · rfl
  · split
    · rw [h' _ _ _ rfl]
    · rename_i x
      rw [h0]
      split
      · exact (x _ _ _ rfl rfl).elim
      · rfl

theorem outer_same {m : String} {n : Node} (h : ∀ a ∈ allAttrs n, named "auto_enum" a = false) :
    ordinaryOuter en m n = ordinary en m n ∧ treatOuter en m n = treatInput en m n := by
  have h' : ∀ k as b l, n = .mk k as (b :: l) → ∀ a ∈ allAttrs b, named "auto_enum" a = false := by
    rintro k as b l rfl a ha
    exact h a (by rw [allAttrs_mk]; simp [attrsL_cons, ha])
  unfold ordinaryOuter ordinary treatOuter treatInput
  constructor
  · split
    · rw [(outerExpr_same (h' _ _ _ _ rfl)).1]
    · rw [(outerExpr_same (h' _ _ _ _ rfl)).1]
    · rw [outlineL_same fun a ha => h' _ _ _ _ rfl a (by rw [allAttrs_mk]; simp [ha])]
    · rename_i x1 x2 x3
      rw [(outerExpr_same h).1]
      split
      · exact (x1 _ _ _ rfl).elim
      · exact (x2 _ _ _ _ rfl).elim
      · exact (x3 _ _ _ _ _ rfl).elim
      · rfl
  · split
    · rw [(outerExpr_same (h' _ _ _ _ rfl)).2]
    · rw [(outerExpr_same (h' _ _ _ _ rfl)).2]
    · rw [outlineL_same fun a ha => h' _ _ _ _ rfl a (by rw [allAttrs_mk]; simp [ha])]
    · rename_i x1 x2 x3
      rw [(outerExpr_same h).2]
      split
      · exact (x1 _ _ _ rfl).elim
      · exact (x2 _ _ _ _ rfl).elim
      · exact (x3 _ _ _ _ _ rfl).elim
      · rfl

end AutoEnums
