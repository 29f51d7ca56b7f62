import Verif.Lemmas.Converge

/-!
# Fuel only matters when it runs out (for C19)

A visit that records no panic gives the same result with more fuel.
-/

namespace AutoEnums

/-- With `rec'` in place of `rec`, `g` gives the same result unless it panics with `rec`. -/
def SameOn {α : Type} (rec rec' : Rec) (g : Rec → Cx × α) : Prop :=
  (g rec).1.panics = [] → g rec' = g rec

namespace SameOn

variable {α β : Type} {rec rec' : Rec}

theorem const (r : Cx × α) : SameOn rec rec' (fun _ => r) := fun _ => rfl

theorem bind {g : Rec → Cx × α} {h : Rec → Cx × α → Cx × β} (hg : SameOn rec rec' g)
    (hk : (h rec (g rec)).1.panics = [] → (g rec).1.panics = [])
    (hh : SameOn rec rec' fun rr => h rr (g rec)) : SameOn rec rec' fun rr => h rr (g rr) := by
  intro hp
  show h rec' (g rec') = h rec (g rec)
  rw [hg (hk hp)]
  exact hh hp

theorem map {g : Rec → Cx × α} (h : Cx × α → Cx × β) (hg : SameOn rec rec' g)
    (hk : ∀ r, (h r).1.panics = [] → r.1.panics = []) : SameOn rec rec' fun rr => h (g rr) :=
  hg.bind (h := fun _ r => h r) (hk _) (.const _)

end SameOn

/-- `rec'` gives the same results as `rec` unless `rec` panics. -/
def SameOnRec (rec rec' : Rec) : Prop :=
  ∀ vk sc cx n, Inv cx → SameOn rec rec' fun rr => rr vk sc cx n

theorem build_panics (cx : Cx) : cx.build.1.panics = cx.panics := by
  rcases build_cases cx with ⟨_, hb⟩ | ⟨_, _, hb⟩ | ⟨_, _, _, hb⟩ | ⟨_, _, hb⟩ <;> rw [hb]
  · rfl

theorem join_child_panics {cx ch : Cx} (hp : (cx.joinChild ch).panics = []) :
    cx.panics = [] ∧ ch.panics = [] := by
  refine ⟨join_panics rfl hp, ?_⟩
  unfold Cx.joinChild Cx.assert Cx.panic at hp
  split at hp <;> simp_all

section
variable {env : Env} {rec rec' : Rec} (hr : GoodRec env rec) (hs : SameOnRec rec rec')
include hr hs

theorem mapA_stays (vk : VK) (sc : Scope) (l : List Node) :
    ∀ cx, Inv cx → SameOn rec rec' fun rr => mapA (rr vk sc) cx l := by
  induction l with
  | nil => intro cx _; exact .const _
  | cons a l ih =>
    intro cx hi hp
    simp only [mapA] at hp ⊢
    have hi1 := (hr.tr vk sc cx a hi).inv hi
    have h1 : (rec vk sc cx a).1.panics = [] := by
      have h := walk_tr hr vk sc (rec vk sc cx a).1 (.mk .eCall [] l) hi1
      simp only [walk, Kind.isOpaque, Bool.false_eq_true, if_false] at h
      exact h.panics_mono rfl hp
    have h2 : rec' vk sc cx a = rec vk sc cx a := hs vk sc cx a hi h1
    have h3 : mapA (rec' vk sc) (rec vk sc cx a).1 l = mapA (rec vk sc) (rec vk sc cx a).1 l :=
      ih _ hi1 hp
    rw [h2, h3]

theorem walk_stays (vk : VK) (sc : Scope) (cx : Cx) (m : Node) (hi : Inv cx) :
    SameOn rec rec' fun rr => walk (rr vk sc) cx m := by
  cases m with
  | mk k as ks =>
    simp only [walk]
    split
    · exact .const _
    · exact (mapA_stays hr hs vk sc ks cx hi).map
        (fun r : Cx × List Node => (r.1, Node.mk k as r.2)) (fun _ h => h)

/-! ### The expansion of an attribute -/

theorem dummyWalk_stays (cx : Cx) (e : Node) (hi : Inv cx) :
    SameOn rec rec' fun rr => dummyWalk rr cx e := by
  unfold dummyWalk
  exact walk_stays hr hs _ _ _ _ ((Book.assert cx _ _).inv hi)

omit hr in
theorem expandTarget_stays (cx : Cx) (e : Node) (hi : Inv cx) :
    SameOn rec rec' fun rr => expandTarget env rr cx e := by
  unfold expandTarget
  have hc := childExpr_tr (env := env) e cx
  dsimp only
  split
  · exact hs _ _ _ _ ((Book.assert _ _ _).inv (hc.inv hi))
  · exact hs _ _ _ _ (hc.inv hi)

omit hr in
theorem expandExpr_stays (cx : Cx) (e : Node) (hm : cx.mode = .default) :
    SameOn rec rec' fun rr => expandExpr env rr cx e := by
  unfold expandExpr
  split
  · split
    · rename_i i as body hv
      dsimp only
      refine (expandTarget_stays hs _ _ ?_).map
        (fun r : Cx × Node => (r.1, Node.mk (.eClosure i) as [r.2])) (fun _ h => h)
      intro _ hn
      simp only at hn
      simp [Cx.visitLast, hn] at hv
    · exact expandTarget_stays hs _ _ (inv_default hm)
  · exact expandTarget_stays hs _ _ (inv_default hm)

omit hr in
theorem expandBuild_stays (cx : Cx) (e : Node) (hm : cx.mode = .default) :
    SameOn rec rec' fun rr => expandBuild env rr cx e := by
  unfold expandBuild
  refine (expandExpr_stays hs cx e hm).map (fun r => match r.1.build with
    | (cx, some item) => (cx, buildExpr item r.2)
    | (cx, none) => (cx, r.2)) (fun r h => ?_)
  have hb := build_panics r.1
  split at h <;> (rename_i heq; rw [heq] at hb; exact hb ▸ h)

omit hr in
theorem expandParentExpr_stays (cx : Cx) (e : Node) (semi : Bool) (hf : Fresh cx) :
    SameOn rec rec' fun rr => expandParentExpr env rr cx e semi := by
  unfold expandParentExpr
  have hm := (semi_mode cx semi).trans hf.mode
  dsimp only
  generalize (if semi then { cx with lastMode := .never } else cx) = cx1 at *
  split
  · exact hs _ _ _ _ ((Book.assert _ _ _).inv (inv_default hm))
  · exact expandBuild_stays hs _ _ hm

theorem expandParentLocal_stays (cx : Cx) (p : LetPat) (as : List Attr) (ks : List Node)
    (hf : Fresh cx) : SameOn rec rec' fun rr => expandParentLocal env rr cx p as ks := by
  unfold expandParentLocal
  obtain ⟨hb, hm, hp⟩ := localAnalysis_setup (env := env) cx p as ks hf
  have hm := hm.trans hf.mode
  dsimp only
  split
  · exact dummyWalk_stays hr hs _ _ (inv_default hm)
  · split
    · exact .const _
    · exact (expandBuild_stays hs _ _ hm).map
        (fun r : Cx × Node => (r.1, Node.mk (.sLocal _) as (r.2 :: _))) (fun _ h => h)

theorem expandParentFn_stays (cx : Cx) (name : String) (ret : Option Ty) (as asb : List Attr)
    (ss : List Node) (hf : Fresh cx) :
    SameOn rec rec' fun rr => expandParentFn env rr cx name ret as asb ss := by
  unfold expandParentFn
  have hb := fnAnalysis_setup (env := env) cx name ret as [.mk .block asb ss] (.mk .block asb ss) hf
  have hi := hb.inv hf.mode
  generalize fnAnalysis env cx ret (.mk .block asb ss) = cx1 at *
  dsimp only
  split
  · exact dummyWalk_stays hr hs _ _ hi
  · generalize hr1 : (if ss.isEmpty = true then (cx1.error .emptyFn, ss) else childLast cx1 ss) = r
    have h1 : T env false cx1 (.mk (.iFn name ret) as [.mk .block asb ss]) r.1
        (.mk (.iFn name ret) as [.mk .block asb r.2]) := by
      refine T.kid0 rfl (.plain rfl (by simp)) ?_
      subst hr1
      split
      · exact .book (.error _ _)
      · exact childLast_tr (k := .block) rfl asb ss (fun m _ => childExpr_tr m) cx1 ss []
          (fun _ h => h)
    have hi1 := h1.inv hi
    split
    · exact dummyWalk_stays hr hs _ _ hi1
    · refine (walk_stays hr hs _ _ _ _ hi1).map
        (fun w : Cx × Node => match w.1.build, w.2 with
          | (cx, some item), .mk k as [.mk .block asb ss] =>
            (cx, Node.mk k as [.mk .block asb (item :: ss)])
          | (cx, _), n => (cx, n)) (fun w h => ?_)
      have hb := build_panics w.1
      split at h <;> (rename_i heq _; rw [heq] at hb; exact hb ▸ h)

theorem expandParentStmt_stays (cx : Cx) (n : Node) (hf : Fresh cx) :
    SameOn rec rec' fun rr => expandParentStmt env rr cx n := by
  unfold expandParentStmt
  split
  · exact (expandParentExpr_stays hs cx _ _ hf).map
      (fun r : Cx × Node => (r.1, Node.mk (.sExpr _) _ [r.2])) (fun _ h => h)
  · exact expandParentLocal_stays hr hs _ _ _ _ hf
  · exact expandParentFn_stays hr hs _ _ _ _ _ _ hf
  · exact .const _
  · exact .const _

/-! ### The visitors -/

theorem vsVisitExpr_stays (vk : VK) (sc : Scope) (cx : Cx) (n : Node) (semi : Bool) (hi : Inv cx)
    (hne : n.anyAttr NAME = true → cx.errs = []) :
    SameOn rec rec' fun rr => vsVisitExpr env rr vk sc cx n semi := by
  unfold vsVisitExpr
  split
  · exact walk_stays hr hs _ _ _ _ hi
  · rename_i attr n1 hf
    have he := hne (Node.findRemoveAttr_some hf).2.2.1
    split
    · rename_i toks hform
      have hmi := (makeChild_book cx (env.hash n1) toks he).inv hi
      dsimp only
      split
      · exact (walk_stays hr hs vk sc _ _ hmi).map (fun w : Cx × Node => (w.1.error _, w.2))
          (fun _ h => h)
      · rename_i ch hm
        obtain ⟨ms, hnew⟩ := makeChild_ok he hm
        refine SameOn.bind (h := fun rr w =>
          (w.1.joinChild (expandParentExpr env rr ch w.2 semi).1,
            (expandParentExpr env rr ch w.2 semi).2)) (walk_stays hr hs vk sc _ n1 hmi)
          (fun h => (join_child_panics h).1) ?_
        exact (expandParentExpr_stays hs _ _ _ (new_fresh hnew)).map
          (fun r : Cx × Node => (Cx.joinChild _ r.1, r.2)) (fun _ h => (join_child_panics h).2)
    · dsimp only
      exact (walk_stays hr hs vk sc _ _ hi).map (fun w : Cx × Node => (w.1.error _, w.2))
        (fun _ h => h)

omit hr hs in
theorem findRemoveAttrs_back (env : Env) (sc : Scope) (r : Cx × Node)
    (h : (findRemoveAttrs sc r.1 r.2).1.panics = []) : r.1.panics = [] :=
  (findRemoveAttrs_tr (env := env) sc r.1 r.2).panics_mono rfl h

theorem visitLocal_stays (vk : VK) (sc : Scope) (cx : Cx) (n : Node) (hi : Inv cx) :
    SameOn rec rec' fun rr => visitLocal rr vk sc cx n := by
  unfold visitLocal
  split
  · exact walk_stays hr hs _ _ _ _ hi
  · split
    · exact .const _
    · extract_lets r
      have h1 : T env false cx n r.1 r.2 := by
        unfold r
        split
        · exact .refl
        · split
          · rename_i hf
            exact T.trans (.dropAttr (by simp) hf)
              (T.kid0 rfl (.plain rfl (by simp)) (visitNested_tr sc cx _ _))
          · rename_i hf
            exact .dropAttr (by simp) hf
          · exact .refl
      dsimp only
      exact (walk_stays hr hs _ _ _ _ (h1.inv hi)).map
        (fun w : Cx × Node => findRemoveAttrs sc w.1 w.2) (findRemoveAttrs_back env sc)

theorem vsVisitStmt_stays (vk : VK) (sc : Scope) (cx : Cx) (n : Node) (hi : Inv cx)
    (he : cx.errs = []) : SameOn rec rec' fun rr => vsVisitStmt env rr vk sc cx n := by
  unfold vsVisitStmt
  split
  · rename_i semi as e
    exact (vsVisitExpr_stays hr hs vk sc cx e semi hi (fun _ => he)).map
      (fun r : Cx × Node => (r.1, Node.mk (.sExpr semi) as [r.2])) (fun _ h => h)
  · split
    · exact visitLocal_stays hr hs vk sc cx _ hi
    · rename_i attr n1 hf
      split
      · rename_i toks htoks
        have hmi := (makeChild_book cx (env.hash n1) toks he).inv hi
        have hc := visitLocal_stays hr hs vk sc (cx.makeChild (env.hash n1) toks).1 n1 hmi
        dsimp only
        split
        · exact hc.map (fun w : Cx × Node => (w.1.error _, w.2)) (fun _ h => h)
        · rename_i ch hm
          obtain ⟨ms, hnew⟩ := makeChild_ok he hm
          refine SameOn.bind (h := fun rr w =>
            (w.1.joinChild (expandParentStmt env rr ch w.2).1,
              (expandParentStmt env rr ch w.2).2)) hc (fun h => (join_child_panics h).1) ?_
          exact (expandParentStmt_stays hr hs _ _ (new_fresh hnew)).map
            (fun r : Cx × Node => (Cx.joinChild _ r.1, r.2)) (fun _ h => (join_child_panics h).2)
      · dsimp only
        exact (visitLocal_stays hr hs vk sc cx n1 hi).map
          (fun w : Cx × Node => (w.1.error _, w.2)) (fun _ h => h)
  · exact .const _

theorem visitExpr_stays (sc : Scope) (cx : Cx) (n : Node) (semi : Bool) (hi : Inv cx)
    (he : cx.errs = []) : SameOn rec rec' fun rr => visitExpr env rr sc cx n semi := by
  unfold visitExpr
  extract_lets cx1 isName sc1 cx2 sc2 r r1
  have hb1 : Book cx cx1 := .assert _ _ _
  have hb2 : Book cx1 cx2 := hasChild_book _ _
  have he1 : cx1.errs = [] := by
    unfold cx1 Cx.assert Cx.panic
    split <;> exact he
  have he2 : cx2.errs = [] := hasChild_errs _ he1
  have hf : n.anyAttr NAME = true → sc2.foreign = true := by
    intro h
    unfold sc2 sc1 isName
    simp only [h, if_true]
    unfold Scope.check
    split <;> rfl
  have hi2 := (hb1.trans hb2).inv hi
  obtain ⟨ht, hne⟩ := preVisit (env := env) sc2 cx2 n hi2 he2 hf
  dsimp only
  refine (vsVisitExpr_stays hr hs .visitor sc2 r1.1 r1.2 semi (ht.inv hi2) hne).map
    (fun r => if (!sc2.foreign || r.1.marker != DEFAULT_MARKER) = true then
      findRemoveAttrs sc2 (visitMarker sc2 r.1 r.2).1 (visitMarker sc2 r.1 r.2).2 else r)
    (fun r h => ?_)
  split at h
  · exact ((visitMarker_tr (env := env) sc2 r.1 r.2).trans
      (findRemoveAttrs_tr sc2 _ _)).panics_mono rfl h
  · exact h

theorem visitArm_stays (sc : Scope) (cx : Cx) (n : Node) (hi : Inv cx) :
    SameOn rec rec' fun rr => visitArm rr sc cx n := by
  unfold visitArm
  split
  · exact .const _
  · extract_lets r
    have h1 : T env false cx n r.1 r.2 := by
      unfold r
      split
      · exact .refl
      · split
        · rename_i hf
          exact T.trans (.dropAttr (by simp) hf)
            (T.kid0 rfl (.plain rfl (by simp)) (visitNested_tr sc cx _ _))
        · rename_i hf
          exact T.trans (.dropAttr (by simp) hf)
            (T.kid1 rfl (.plain rfl (by simp)) (visitNested_tr sc cx _ _))
        · rename_i hf
          exact .dropAttr (by simp) hf
        · exact .refl
    dsimp only
    exact (walk_stays hr hs _ _ _ _ (h1.inv hi)).map
      (fun w : Cx × Node => findRemoveAttrs sc w.1 w.2) (findRemoveAttrs_back env sc)

theorem visitStmt_stays (sc : Scope) (cx : Cx) (n : Node) (hi : Inv cx) :
    SameOn rec rec' fun rr => visitStmt env rr sc cx n := by
  unfold visitStmt
  split
  · exact .const _
  · rename_i he
    have he := hasError_false he
    split
    · rename_i semi as e
      exact (visitExpr_stays hr hs sc cx e semi hi he).map
        (fun r : Cx × Node => (r.1, Node.mk (.sExpr semi) as [r.2])) (fun _ h => h)
    · exact vsVisitStmt_stays hr hs _ _ _ _ ((hasChild_book cx _).inv hi) (hasChild_errs _ he)

theorem step_stays (vk : VK) (sc : Scope) (cx : Cx) (n : Node) (hi : Inv cx) :
    SameOn rec rec' fun rr => step env rr vk sc cx n := by
  cases vk with
  | visitor =>
    simp only [step, visitorStep]
    split
    · split
      · exact .const _
      · rename_i he
        exact visitExpr_stays hr hs _ _ _ _ hi (hasError_false he)
    · split
      · exact visitStmt_stays hr hs _ _ _ hi
      · split
        · exact visitArm_stays hr hs _ _ _ hi
        · exact walk_stays hr hs _ _ _ _ hi
  | dummy =>
    simp only [step, dummyStep]
    split
    · split
      · exact .const _
      · rename_i he
        have he := hasError_false he
        exact vsVisitExpr_stays hr hs _ _ _ _ _ ((hasChild_book cx _).inv hi)
          (fun _ => hasChild_errs _ he)
    · split
      · split
        · exact .const _
        · rename_i he
          have he := hasError_false he
          exact vsVisitStmt_stays hr hs _ _ _ _ ((hasChild_book cx _).inv hi)
            (hasChild_errs _ he)
      · exact walk_stays hr hs _ _ _ _ hi

end

theorem visit_succ_stays (env : Env) : ∀ f, SameOnRec (visit env f) (visit env (f + 1)) := by
  intro f
  induction f with
  | zero =>
    intro vk sc cx n _ hp
    exact absurd hp (by simp [visit, Cx.panic])
  | succ f ih =>
    intro vk sc cx n hi
    exact step_stays (visit_good env f) ih vk sc cx n hi

theorem visit_stays (env : Env) {f g : Nat} (h : f ≤ g) : SameOnRec (visit env f) (visit env g) := by
  induction h with
  | refl => exact fun _ _ _ _ _ _ => rfl
  | @step m _ ih =>
    intro vk sc cx n hi hp
    have h1 : visit env m vk sc cx n = visit env f vk sc cx n := ih vk sc cx n hi hp
    have h2 : visit env (m + 1) vk sc cx n = visit env m vk sc cx n :=
      visit_succ_stays env m vk sc cx n hi (by
        show (visit env m vk sc cx n).1.panics = []; rw [h1]; exact hp)
    show visit env (m + 1) vk sc cx n = visit env f vk sc cx n
    rw [h2, h1]

end AutoEnums
