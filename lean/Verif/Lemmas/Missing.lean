import Verif.Lemmas.Chain
import Verif.Lemmas.Accepted
import Verif.Lemmas.Converge

/-! # Lemmas: where the error "missing `else`" comes from -/

namespace AutoEnums

open Spec

/-- No inner attribute and no `#[nested]` in the tree. -/
def Bare (n : Node) : Prop := names n = 0 ∧ nests n = 0

theorem Bare.kid {m c : Node} (h : Bare m) (hc : c ∈ m.kids) : Bare c := by
  have h1 := names_kid hc
  have h2 := nests_kid hc
  unfold Bare at *
  omega

theorem Bare.tr {env : Env} {b : Bool} {cx cx' : Cx} {n n' : Node} (h : Bare n)
    (ht : T env b cx n cx' n') : Bare n' := by
  have h1 := ht.names_le
  have h2 := ht.nests_le
  unfold Bare at *
  omega

theorem Bare.name {n : Node} (h : Bare n) : n.findRemoveAttr NAME = none := by
  cases hf : n.findRemoveAttr NAME with
  | none => rfl
  | some r => have := (names_remove hf).2.2.1 rfl; have := h.1; omega

theorem Bare.nested {n : Node} (h : Bare n) : n.findRemoveAttr NESTED = none := by
  cases hf : n.findRemoveAttr NESTED with
  | none => rfl
  | some r => have := (names_remove hf).2.2.2 rfl; have := h.2; omega

/-- No missing `else` is reported in between. -/
def Silent (a b : Cx) : Prop := Err.missingElse ∈ b.errs → Err.missingElse ∈ a.errs

theorem Silent.refl (a : Cx) : Silent a a := id
theorem Silent.trans {a b c : Cx} (h1 : Silent a b) (h2 : Silent b c) : Silent a c := fun h => h1 (h2 h)
theorem Silent.of_eq {a b : Cx} (h : b.errs = a.errs) : Silent a b := by
  unfold Silent; rw [h]; exact id
theorem Silent.error (a : Cx) {e : Err} (h : e ≠ .missingElse) : Silent a (a.error e) := by
  intro hm
  simp only [Cx.error, List.mem_append, List.mem_singleton] at hm
  rcases hm with hm | hm
  · exact hm
  · exact absurd hm.symm h
theorem Silent.assert (a : Cx) (b : Bool) (p : Panic) : Silent a (a.assert b p) := by
  unfold Cx.assert; split <;> exact .refl _
theorem Silent.hasChild (a : Cx) (b : Bool) :
    Silent a (if b then { a with hasChild := true } else a) := by
  split <;> exact .refl _

theorem findRemoveAttrs_silent (sc : Scope) (cx : Cx) (n : Node) :
    Silent cx (findRemoveAttrs sc cx n).1 := by
  unfold findRemoveAttrs
  split
  · exact .refl _
  · dsimp only
    have h1 : Silent cx (match n.findRemoveAttr NEVER with
      | some (a, n) => (if a.form == .path then cx else cx.error .neverNotPath, n)
      | none => (cx, n) : Cx × Node).1 := by
      split
      · dsimp only
        split
        · exact .refl _
        · exact .error _ (by simp)
      · exact .refl _
    split
    · exact h1.trans (.error _ (by simp))
    · exact h1

theorem visitMarker_silent (sc : Scope) (cx : Cx) (n : Node) : Silent cx (visitMarker sc cx n).1 := by
  unfold visitMarker
  dsimp only
  refine (Silent.assert cx (!sc.foreign || cx.marker != DEFAULT_MARKER) .markerForeign).trans ?_
  generalize cx.assert (!sc.foreign || cx.marker != DEFAULT_MARKER) .markerForeign = cx1
  split
  · split
    · split
      · split <;> exact .refl _
      · exact .error _ (by simp)
    · exact .refl _
  · exact .refl _

section
variable {env : Env} {rec : Rec} (hg : GoodRec env rec)
  (hs : ∀ vk sc cx n, Inv cx → Bare n → Silent cx (rec vk sc cx n).1)
include hg hs

theorem mapA_silent (vk : VK) (sc : Scope) : ∀ (l : List Node) (cx : Cx), Inv cx →
    (∀ n ∈ l, Bare n) → Silent cx (mapA (rec vk sc) cx l).1 := by
  intro l
  induction l with
  | nil => intro cx _ _; exact .refl _
  | cons a l ih =>
    intro cx hi hb
    simp only [mapA]
    exact (hs vk sc cx a hi (hb a (by simp))).trans
      (ih _ ((hg.tr vk sc cx a hi).inv hi) fun n h => hb n (by simp [h]))

theorem walk_silent (vk : VK) (sc : Scope) (cx : Cx) (n : Node) (hi : Inv cx) (hb : Bare n) :
    Silent cx (walk (rec vk sc) cx n).1 := by
  obtain ⟨k, as, ks⟩ := n
  simp only [walk]
  split
  · exact .refl _
  · exact mapA_silent hg hs vk sc ks cx hi fun n h => hb.kid h

theorem vsVisitExpr_silent (vk : VK) (sc : Scope) (cx : Cx) (n : Node) (b : Bool) (hi : Inv cx)
    (hb : Bare n) : Silent cx (vsVisitExpr env rec vk sc cx n b).1 := by
  unfold vsVisitExpr
  rw [hb.name]
  exact walk_silent hg hs _ _ _ _ hi hb

theorem visitLocal_silent (vk : VK) (sc : Scope) (cx : Cx) (n : Node) (hi : Inv cx) (hb : Bare n) :
    Silent cx (visitLocal rec vk sc cx n).1 := by
  unfold visitLocal
  split
  · exact walk_silent hg hs _ _ _ _ hi hb
  · split
    · exact .refl _
    · rw [hb.nested]
      dsimp only
      rw [ite_self]
      exact (walk_silent hg hs _ _ _ _ hi hb).trans (findRemoveAttrs_silent _ _ _)

theorem vsVisitStmt_silent (vk : VK) (sc : Scope) (cx : Cx) (n : Node) (hi : Inv cx) (hb : Bare n) :
    Silent cx (vsVisitStmt env rec vk sc cx n).1 := by
  unfold vsVisitStmt
  split
  · exact vsVisitExpr_silent hg hs _ _ _ _ _ hi (hb.kid (by simp [Node.kids]))
  · rw [hb.name]
    exact visitLocal_silent hg hs _ _ _ _ hi hb
  · exact .refl _

theorem visitExpr_silent (sc : Scope) (cx : Cx) (n : Node) (b : Bool) (hi : Inv cx)
    (hb : Bare n) : Silent cx (visitExpr env rec sc cx n b).1 := by
  unfold visitExpr
  dsimp only
  have h0 := (Silent.assert cx (!cx.hasError) .visitAfterError).trans
    (Silent.hasChild (cx.assert (!cx.hasError) .visitAfterError) (n.anyAttr NAME))
  have hi0 : Inv (if n.anyAttr NAME = true then
      { cx.assert (!cx.hasError) .visitAfterError with hasChild := true }
      else cx.assert (!cx.hasError) .visitAfterError) :=
    (hasChild_book _ _).inv ((Book.assert cx _ _).inv hi)
  generalize (if n.anyAttr NAME = true then
      { cx.assert (!cx.hasError) .visitAfterError with hasChild := true }
      else cx.assert (!cx.hasError) .visitAfterError) = cx0 at *
  generalize ((if n.anyAttr NAME = true then { sc with foreign := true } else sc).check n.kind) = sc0
  have h1 := Silent.of_eq (visitMode_errs sc0 cx0 n)
  have t1 := visitMode_tr (env := env) sc0 cx0 n hi0
  have b1 := hb.tr t1
  have i1 := t1.inv hi0
  generalize visitMode sc0 cx0 n = r at *
  rw [b1.nested]
  dsimp only
  rw [ite_self]
  have h2 := vsVisitExpr_silent hg hs .visitor sc0 r.1 r.2 b i1 b1
  split
  · exact h0.trans (h1.trans (h2.trans ((visitMarker_silent _ _ _).trans (findRemoveAttrs_silent _ _ _))))
  · exact h0.trans (h1.trans h2)

theorem visitArm_silent (sc : Scope) (cx : Cx) (n : Node) (hi : Inv cx) (hb : Bare n) :
    Silent cx (visitArm rec sc cx n).1 := by
  unfold visitArm
  split
  · exact .refl _
  · rw [hb.nested]
    dsimp only
    rw [ite_self]
    exact (walk_silent hg hs _ _ _ _ hi hb).trans (findRemoveAttrs_silent _ _ _)

theorem visitStmt_silent (sc : Scope) (cx : Cx) (n : Node) (hi : Inv cx) (hb : Bare n) :
    Silent cx (visitStmt env rec sc cx n).1 := by
  unfold visitStmt
  split
  · exact .refl _
  · split
    · exact visitExpr_silent hg hs _ _ _ _ hi (hb.kid (by simp [Node.kids]))
    · dsimp only
      exact (Silent.hasChild cx _).trans (vsVisitStmt_silent hg hs _ _ _ _ ((hasChild_book _ _).inv hi) hb)

theorem step_silent (vk : VK) (sc : Scope) (cx : Cx) (n : Node) (hi : Inv cx) (hb : Bare n) :
    Silent cx (step env rec vk sc cx n).1 := by
  cases vk with
  | visitor =>
    unfold step visitorStep
    dsimp only
    split
    · split
      · exact .refl _
      · exact visitExpr_silent hg hs _ _ _ _ hi hb
    · split
      · exact visitStmt_silent hg hs _ _ _ hi hb
      · split
        · exact visitArm_silent hg hs _ _ _ hi hb
        · exact walk_silent hg hs _ _ _ _ hi hb
  | dummy =>
    unfold step dummyStep
    dsimp only
    split
    · split
      · exact .refl _
      · exact (Silent.hasChild cx _).trans
          (vsVisitExpr_silent hg hs _ _ _ _ _ ((hasChild_book _ _).inv hi) hb)
    · split
      · split
        · exact .refl _
        · exact (Silent.hasChild cx _).trans
            (vsVisitStmt_silent hg hs _ _ _ _ ((hasChild_book _ _).inv hi) hb)
      · exact walk_silent hg hs _ _ _ _ hi hb

end

theorem visit_silent (env : Env) : ∀ f vk sc cx n, Inv cx → Bare n →
    Silent cx (visit env f vk sc cx n).1 := by
  intro f
  induction f with
  | zero => intro _ _ _ _ _ _; exact .refl _
  | succ f ih =>
    intro vk sc cx n hi hb
    exact step_silent (visit_good env f) ih vk sc cx n hi hb

/-! ## From the chain to the report -/

/-- The error is reported iff `h` is false (only if, provided `P`). -/
def Tells (P : Prop) (h : Bool) (cx : Cx) : Prop :=
  (h = false → Err.missingElse ∈ cx.errs) ∧ (P → h = true → Err.missingElse ∉ cx.errs)

theorem Tells.build {P : Prop} {h : Bool} {cx : Cx} (ht : Tells P h cx) : Tells P h cx.build.1 := by
  rcases build_cases cx with ⟨_, hb⟩ | ⟨he, _, hb⟩ | ⟨_, _, _, hb⟩ | ⟨_, _, hb⟩ <;> rw [hb]
  · exact ht
  · refine ⟨fun hh => ?_, fun hp hh => ?_⟩
    · have := ht.1 hh
      simp [he] at this
    · simp [Cx.error, he]
  · exact ht
  · exact ht

theorem childExpr_chain {cx : Cx} (hr : cx.root = true) (hv : cx.visitLast = true) {r : Node}
    (hc : isChain r = true) (hu : exempt cx.marker r = false) :
    (childExpr cx r).1.errs = cx.errs ++ if hasElse r then [] else [.missingElse] := by
  have hk := isChain_kind hc
  obtain ⟨k, as, ks⟩ := r
  cases hk
  rw [childExpr.eq_def]
  simp only [hv, exempt_eq hr, hu, Bool.not_true, Bool.or_self, Bool.false_eq_true, if_false]
  exact visitIf_errs _ cx hc

section
variable {env : Env} {rec : Rec} (hg : GoodRec env rec)
  (hs : ∀ vk sc cx n, Inv cx → Bare n → Silent cx (rec vk sc cx n).1)
include hg hs

theorem expandTarget_tells {cx : Cx} (hi : Inv cx) (he : cx.errs = []) (hr : cx.root = true)
    (hv : cx.visitLast = true) {e : Node} (hc : isChain (resultOf e) = true)
    (hu : exempt cx.marker e = false) (hw : clearWay e = true) :
    Tells (Bare e) (hasElse (resultOf e)) (expandTarget env rec cx e).1 := by
  have hb : isBranching (resultOf e).kind = true := by rw [isChain_kind hc]; rfl
  obtain ⟨_, _, h3, h4⟩ := reaches hr hv e hb hu hw
  have h5 := childExpr_chain hr hv hc h3
  rw [← h4, he, List.nil_append] at h5
  have ht := childExpr_tr (env := env) e cx
  have hi' := ht.inv hi
  have key : ∀ cx' n', T env false (childExpr cx e).1 (childExpr cx e).2 cx' n' →
      (Bare e → Silent (childExpr cx e).1 cx') → Tells (Bare e) (hasElse (resultOf e)) cx' := by
    intro cx' n' h1 h2
    refine ⟨fun hh => ?_, fun hb hh hm => ?_⟩
    · refine h1.errs_mono.subset ?_
      rw [h5, hh]
      simp
    · have := h2 hb hm
      rw [h5, hh] at this
      simp at this
  unfold expandTarget
  dsimp only
  split
  · refine key _ _ (dummyExpr_tr hg _ _ hi') fun hb => ?_
    unfold dummyExpr
    exact (Silent.assert _ _ _).trans (hs _ _ _ _ ((Book.assert _ _ _).inv hi') (hb.tr ht))
  · exact key _ _ (hg.tr _ _ _ _ hi') fun hb => hs _ _ _ _ hi' (hb.tr ht)

theorem expandBuild_tells {cx : Cx} (hm : cx.mode = .default) (he : cx.errs = [])
    (hr : cx.root = true) (hv : cx.visitLast = true) {e : Node}
    (hc : isChain (resultOf (bodyOf e)) = true) (hu : exempt cx.marker (bodyOf e) = false)
    (hw : clearWay (bodyOf e) = true) (hsh : shaped (bodyOf e) = true)
    (hJ : (jobOfExpr cx.ident cx.marker e).branches = true) :
    Tells (Bare e) (hasElse (resultOf (bodyOf e))) (expandBuild env rec cx e).1 := by
  have key : Tells (Bare e) (hasElse (resultOf (bodyOf e))) (expandExpr env rec cx e).1 := by
    unfold expandExpr
    split
    · rename_i i as b
      rw [if_pos hv]
      have hv' : (closureCx cx b).visitLast = true := by
        rw [(closure_does (b := b) hr hv hsh).branches]
        exact hJ
      have hi : Inv (closureCx cx b) := by
        intro _ hn
        have hn' : cx.lastMode = .never := hn
        simp [Cx.visitLast, hn'] at hv
      have := expandTarget_tells hg hs (cx := closureCx cx b) hi he hr hv' hc hu hw
      exact ⟨this.1, fun hb => this.2 (hb.kid (by simp [Node.kids, bodyOf]))⟩
    · rename_i hne
      have hbo : bodyOf e = e := by
        unfold bodyOf
        split
        · exact absurd rfl (hne _ _ _)
        · rfl
      simp only [hbo] at hc hu hw ⊢
      exact expandTarget_tells hg hs (inv_default hm) he hr hv hc hu hw
  have h2 : (expandBuild env rec cx e).1 = (expandExpr env rec cx e).1.build.1 := by
    unfold expandBuild
    dsimp only
    split <;> rename_i heq <;> rw [heq]
  rw [h2]
  exact key.build

end

theorem expandInput_tells {env : Env} {fuel : Nat} {cx : Cx} {input : Input} {n : Node} {r : Cx × Node}
    (hp : Passed input n) (hex : expandInput env fuel cx input = some r) (hf : Fresh cx)
    (hroot : cx.root = true) (ha : cx.args ≠ []) (he : cx.errs = [])
    (hc : isChain (resultOf (startOf n)) = true) (hu : exempt cx.marker (startOf n) = false)
    (hw : clearWay (startOf n) = true) (hsh : shaped n = true)
    (hJ : (jobOf cx.ident cx.marker n).branches = true) :
    Tells (Bare n) (hasElse (resultOf (startOf n))) r.1 := by
  have hg := visit_good env fuel
  have hs := visit_silent env fuel
  have hbody : ∀ e, shaped e = true → shaped (bodyOf e) = true := by
    intro e h
    unfold bodyOf
    split
    · simpa [shaped, shapedL] using h
    · exact h
  rcases hp with ⟨rfl, hx⟩ | ⟨rfl, hx⟩
  · simp only [expandInput, Option.some.injEq] at hex
    subst hex
    have hto : targetOf n = n := by
      rw [isExprNode_eq] at hx
      unfold targetOf
      split <;> first | rfl | cases hx
    have hj : jobOf cx.ident cx.marker n = jobOfExpr cx.ident cx.marker n := by
      unfold jobOf
      split
      · cases hx
      · cases hx
      · rw [hto]
    rw [hj] at hJ
    simp only [startOf, hto] at hc hu hw ⊢
    simp only [expandParentExpr, Bool.false_eq_true, if_false, notDummy ha]
    exact expandBuild_tells hg hs hf.mode he hroot (visitLast_fresh hf) hc hu hw (hbody _ hsh) hJ
  · simp only [expandInput, Option.some.injEq] at hex
    subst hex
    unfold expandParentStmt
    split
    · rename_i semi as e
      cases semi with
      | true => cases hJ
      | false =>
        simp only [expandParentExpr, Bool.false_eq_true, if_false, notDummy ha]
        simp only [shaped, shapedL, Bool.and_true, Bool.true_and] at hsh
        have := expandBuild_tells hg hs hf.mode he hroot (visitLast_fresh hf) hc hu hw (hbody _ hsh) hJ
        exact ⟨this.1, fun hb => this.2 (hb.kid (by simp [Node.kids, targetOf]))⟩
    · rename_i pat as ks
      unfold expandParentLocal
      obtain ⟨m1, m2, m3⟩ : (localAnalysis env cx pat).1.lastMode = _ ∧ _ ∧ _ :=
        localAnalysis_modes (p1 := (localAnalysis env cx pat).2) rfl
      have hk : Kept cx (localAnalysis env cx pat).1 :=
        localAnalysis_kept (p1 := (localAnalysis env cx pat).2) rfl
      have herr : (localAnalysis env cx pat).1.errs = [] := by
        rw [← he]
        unfold localAnalysis
        split
        · split <;> rfl
        · rfl
      generalize localAnalysis env cx pat = l at *
      dsimp only
      rw [notDummy (by rw [hk.args]; exact ha)]
      cases ks with
      | nil =>
        have := isChain_kind hc
        simp [startOf, targetOf, bodyOf, resultOf, Node.kind] at this
      | cons e els =>
        simp only [shaped, shapedL, Bool.true_and, Bool.and_eq_true] at hsh
        simp only [Bool.false_eq_true, if_false]
        have hv : l.1.visitLast = true := by
          simp [Cx.visitLast, m1, m2, hf.lastMode, hf.mode]
        have := expandBuild_tells hg hs (m2.trans hf.mode) herr (hk.root.trans hroot) hv (e := e) hc
          (by rw [hk.marker]; exact hu) hw (hbody _ hsh.1) (by rw [hk.ident, hk.marker]; exact hJ)
        exact ⟨this.1, fun hb => this.2 (hb.kid (by simp [Node.kids]))⟩
    · rename_i name ret as asb ss
      unfold expandParentFn
      have hk : Kept cx (fnAnalysis env cx ret (.mk .block asb ss)) := fnAnalysis_kept rfl
      have hd := fnAnalysis_does (env := env) (ret := ret) (b := .mk .block asb ss) hroot hf
        (by simpa [shaped, shapedL] using hsh)
      have hset := fnAnalysis_setup (env := env) cx name ret as [] (.mk .block asb ss) hf
      have hi := hset.inv hf.mode
      have herr : (fnAnalysis env cx ret (.mk .block asb ss)).errs = [] := by rw [← he]; exact hset.errs
      generalize fnAnalysis env cx ret (.mk .block asb ss) = cx1 at *
      dsimp only
      rw [notDummy (by rw [hk.args]; exact ha)]
      simp only [Bool.false_eq_true, if_false]
      simp only [startOf, targetOf, bodyOf, resultOf] at hc hu hw ⊢
      rw [exempt.eq_def] at hu
      rw [clearWay.eq_def] at hw
      simp only [Bool.or_eq_false_iff] at hu
      simp only [Bool.and_eq_true] at hw
      have hb : isBranching (lastOf ss).kind = true := by rw [isChain_kind hc]; rfl
      have hne : ss.isEmpty = false := by
        cases ss with
        | nil => cases hb
        | cons _ _ => rfl
      rw [hne]
      simp only [Bool.false_eq_true, if_false]
      have hv := hd.branches.trans hJ
      obtain ⟨_, _, h3, h4⟩ := reaches_last hb (by rw [hk.marker]; exact hu.2) hw.2
        fun m _ => reaches hd.root hv m
      have h5 := childExpr_chain hd.root hv hc h3
      rw [← h4, herr, List.nil_append] at h5
      have h1 : T env false cx1 (.mk (.iFn name ret) as [.mk .block asb ss]) (childLast cx1 ss).1
          (.mk (.iFn name ret) as [.mk .block asb (childLast cx1 ss).2]) :=
        T.kid0 rfl (.plain rfl (by simp)) (childLast_tr (k := .block) rfl asb ss
          (fun m _ => childExpr_tr m) cx1 ss [] fun _ h => h)
      have hi1 := h1.inv hi
      have key : ∀ cx' n', T env false (childLast cx1 ss).1
          (.mk (.iFn name ret) as [.mk .block asb (childLast cx1 ss).2]) cx' n' →
          (Bare (.mk (.iFn name ret) as [.mk .block asb ss]) → Silent (childLast cx1 ss).1 cx') →
          Tells (Bare (.mk (.iFn name ret) as [.mk .block asb ss])) (hasElse (lastOf ss)) cx' := by
        intro cx' n' h1 h2
        refine ⟨fun hh => ?_, fun hb hh hm => ?_⟩
        · refine h1.errs_mono.subset ?_
          rw [h5, hh]
          simp
        · have := h2 hb hm
          rw [h5, hh] at this
          simp at this
      split
      · refine key _ _ (dummyWalk_tr hg _ _ hi1) fun hb => ?_
        unfold dummyWalk
        exact (Silent.assert _ _ _).trans
          (walk_silent hg hs _ _ _ _ ((Book.assert _ _ _).inv hi1) (hb.tr h1))
      · have := (key _ _ (walk_tr hg .visitor {} _ _ hi1)
          fun hb => walk_silent hg hs _ _ _ _ hi1 (hb.tr h1)).build
        split <;> rename_i heq _ <;> rw [heq] at this <;> exact this
    · rename_i i as ks
      have := isChain_kind hc
      simp [startOf, targetOf, bodyOf, resultOf, Node.kind] at this
    · rename_i h1 h2 h3 h4
      have ht : startOf n = n := by
        have hto : targetOf n = n := by
          unfold targetOf
          split
          · exact absurd rfl (h1 _ _ _)
          · exact absurd rfl (h2 _ _ _)
          · exact absurd rfl (h3 _ _ _ _ _)
          · rfl
        unfold startOf
        rw [hto]
        unfold bodyOf
        split
        · cases hx
        · rfl
      exfalso
      rw [ht] at hc
      have hk := isChain_kind hc
      obtain ⟨k, as, ks⟩ := n
      have : resultOf (.mk k as ks) = .mk k as ks := by
        rw [resultOf.eq_def]
        dsimp only
        split <;> first | cases hx | rfl
      rw [this] at hk
      cases hk
      cases hx

end AutoEnums
