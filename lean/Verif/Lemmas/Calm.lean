import Verif.Lemmas.Shape

/-! # No assertion fails (for C18) -/

namespace AutoEnums

open Spec

/-- Nothing but panics in `S` went wrong between the two states. -/
structure Calm (S : Panic → Prop) (a b : Cx) : Prop where
  markers : b.markers.length ≤ a.markers.length
  child : a.hasChild = true → b.hasChild = true
  panics : ∀ p ∈ b.panics, p ∈ a.panics ∨ S p

variable {S : Panic → Prop}

namespace Calm

theorem refl (a : Cx) : Calm S a a := ⟨Nat.le_refl _, id, fun _ h => .inl h⟩

theorem trans {a b c : Cx} (h : Calm S a b) (h' : Calm S b c) : Calm S a c :=
  ⟨Nat.le_trans h'.markers h.markers, fun x => h'.child (h.child x), fun p hp => by
    rcases h'.panics p hp with h1 | h1
    · exact h.panics p h1
    · exact .inr h1⟩

theorem error (a : Cx) (e : Err) : Calm S a (a.error e) := ⟨Nat.le_refl _, id, fun _ h => .inl h⟩

theorem assert {a : Cx} {b : Bool} {p : Panic} (h : b = true) : Calm S a (a.assert b p) := by
  subst h; exact .refl _

theorem panic {a : Cx} {p : Panic} (h : S p) : Calm S a (a.panic p) :=
  ⟨Nat.le_refl _, id, fun q hq => by
    rcases List.mem_append.mp hq with h1 | h1
    · exact .inl h1
    · rw [List.mem_singleton.mp h1]; exact .inr h⟩

theorem next (a : Cx) (as : List Attr) (e : Node) : Calm S a (a.nextExprAttrs as e).1 :=
  ⟨Nat.le_refl _, id, fun _ h => .inl h⟩

theorem build (a : Cx) : Calm S a a.build.1 := by
  rcases build_cases a with ⟨_, h⟩ | ⟨_, _, h⟩ | ⟨_, _, _, h⟩ | ⟨_, _, h⟩ <;> rw [h]
  · exact .refl _
  · exact .error _ _
  · exact .refl _
  · exact .refl _

end Calm

theorem replaceBoxed_calm (cx : Cx) (ks : List Node) : Calm S cx (cx.replaceBoxed ks).1 := by
  unfold Cx.replaceBoxed
  split
  · exact ⟨Nat.le_refl _, id, fun _ h => .inl h⟩
  · split
    · exact .refl _
    · exact ⟨Nat.le_refl _, id, fun _ h => .inl h⟩

theorem wrapArm_calm (cx : Cx) (n : Node) : Calm S cx (wrapArm cx n).1 := by
  unfold wrapArm
  split
  · exact .refl _
  · split
    · exact ⟨Nat.le_refl _, id, fun _ h => .inl h⟩
    · exact ⟨Nat.le_refl _, id, fun _ h => .inl h⟩
    · exact .refl _

theorem wrapBlock_calm (cx : Cx) (ss : List Node) : Calm S cx (wrapBlock cx ss).1 := by
  unfold wrapBlock
  split
  · exact .refl _
  · exact ⟨Nat.le_refl _, id, fun _ h => .inl h⟩

theorem mapA_calm {f : Cx → Node → Cx × Node} (P : Cx → Prop)
    (hP : ∀ cx n, P cx → elseOk n = true → P (f cx n).1)
    (hf : ∀ cx n, P cx → elseOk n = true → Calm S cx (f cx n).1) :
    ∀ (l : List Node) (cx : Cx), P cx → elseOkL l = true → Calm S cx (mapA f cx l).1 := by
  intro l
  induction l with
  | nil => intro cx _ _; exact .refl _
  | cons a l ih =>
    intro cx hp hs
    simp only [elseOkL_cons, Bool.and_eq_true] at hs
    simp only [mapA]
    exact (hf cx a hp hs.1).trans (ih _ (hP cx a hp hs.1) hs.2)

theorem visitIf_calm : ∀ (n : Node) (cx : Cx), elseOk n = true → Calm S cx (visitIf cx n).1 := by
  intro n
  induction n using Node.strongInd with
  | h n ih =>
    intro cx hs
    unfold visitIf
    split
    · exact (wrapBlock_calm _ _).trans (.error _ _)
    · rename_i as c asb ss e
      rw [elseOk_mk, Bool.and_eq_true] at hs
      have he : mayFollowElse e = true := by simpa using hs.1
      have hse : elseOk e = true := elseOkL_mem hs.2 e (by simp)
      rw [mayFollowElse_iff] at he
      dsimp only
      split
      · exact (wrapBlock_calm _ _).trans (wrapBlock_calm _ _)
      · exact (wrapBlock_calm _ _).trans (ih e (Node.sizeOf_kid (by simp)) _ hse)
      · rename_i h1 h2
        exfalso
        revert he h1 h2
        cases e.kind <;> simp [Kind.isElse]
    · exact .refl _

theorem loopVisit_calm (label : Option String) : ∀ (n : Node) (nested : Bool) (cx : Cx),
    Calm S cx (loopVisit label nested cx n).1 := by
  intro n
  induction n using Node.ind with
  | h k as ks ih =>
    intro nested cx
    have hl : ∀ (nested : Bool) (l : List Node) (cx : Cx), (∀ c ∈ l, c ∈ ks) →
        Calm S cx (loopVisitL label nested cx l).1 := by
      intro nested l
      induction l with
      | nil => intro cx _; exact .refl _
      | cons a l ihl =>
        intro cx hm
        simp only [loopVisitL]
        exact (ih a (hm a (by simp)) _ _).trans (ihl _ fun c hc => hm c (by simp [hc]))
    unfold loopVisit
    split
    · exact .refl _
    · split
      · exact .refl _
      · exact .refl _
      · split
        · exact .refl _
        · exact hl _ _ _ fun _ h => h
      · split
        · exact .refl _
        · exact hl _ _ _ fun _ h => h
      · split
        · exact .refl _
        · exact hl _ _ _ fun _ h => h
      · split
        · split
          · exact replaceBoxed_calm _ _
          · split
            · exact .refl _
            · have := ih _ (List.mem_cons_self ..) nested
                { cx with variants := cx.variants ++ [variantIdent cx.variants.length] }
              exact ⟨this.markers, this.child, this.panics⟩
        · exact hl _ _ _ fun _ h => h
      · exact hl _ _ _ fun _ h => h

theorem loopVisitL_calm (label : Option String) (nested : Bool) : ∀ (l : List Node) (cx : Cx),
    Calm S cx (loopVisitL label nested cx l).1 := by
  intro l
  induction l with
  | nil => intro cx; exact .refl _
  | cons a l ihl =>
    intro cx
    simp only [loopVisitL]
    exact (loopVisit_calm _ _ _ _).trans (ihl _)

theorem childLast_calm_of {ks : List Node}
    (ih : ∀ m, (∃ as, .mk (.sExpr false) as [m] ∈ ks) → ∀ cx, elseOk m = true →
      Calm S cx (childExpr cx m).1) (cx : Cx) :
    ∀ l : List Node, (∀ c ∈ l, c ∈ ks) → elseOkL l = true → Calm S cx (childLast cx l).1 := by
  intro l
  induction l with
  | nil => intro _ _; unfold childLast; exact .refl _
  | cons a l ihl =>
    intro hm hs
    unfold childLast
    split
    · contradiction
    · rename_i as e heq
      obtain ⟨rfl, rfl⟩ := List.cons.inj heq
      refine ih e ⟨as, hm _ (by simp)⟩ cx ?_
      simp only [elseOkL_cons, elseOk_plain (show Kind.sExpr false ≠ .eIf by simp)] at hs
      simpa using hs
    · exact .refl _
    · rename_i s t ss heq
      obtain ⟨rfl, rfl⟩ := List.cons.inj heq
      rw [elseOkL_cons, Bool.and_eq_true] at hs
      exact ihl (fun c hc => hm c (by simp [hc])) hs.2

theorem childExpr_calm : ∀ (n : Node) (cx : Cx), elseOk n = true → Calm S cx (childExpr cx n).1 := by
  intro n
  induction n using Node.strongInd with
  | h n ih =>
    intro cx hs
    have hl : ∀ (k : Kind) (as : List Attr) (ks : List Node), n = .mk k as ks →
        ∀ cx, Calm S cx (childLast cx ks).1 := by
      rintro k as ks rfl cx
      refine childLast_calm_of (ks := ks) (fun m hm cx hsm => ih m ?_ cx hsm) cx ks (fun _ h => h)
        (elseOk_kids hs)
      obtain ⟨as', hm⟩ := hm
      have h1 := Node.sizeOf_kid (k := .sExpr false) (as := as') (ks := [m]) (c := m) (by simp)
      have h2 := Node.sizeOf_kid (k := k) (as := as) hm
      omega
    cases n with
    | mk k as ks =>
      have hk := elseOk_kids hs
      unfold childExpr
      split
      · exact .refl _
      · split
        · exact hl _ _ _ rfl _
        · exact hl _ _ _ rfl _
        · refine mapA_calm (fun _ => True) (fun _ _ _ _ => trivial)
            (fun cx n _ _ => wrapArm_calm cx n) _ _ trivial ?_
          rw [elseOkL_cons, Bool.and_eq_true] at hk
          exact hk.2
        · exact visitIf_calm _ _ hs
        · exact loopVisitL_calm _ _ _ _
        · exact ih _ (Node.sizeOf_kid (by simp)) _ (elseOkL_mem hk _ (by simp))
        · exact ih _ (Node.sizeOf_kid (by simp)) _ (elseOkL_mem hk _ (by simp))
        · exact .refl _

theorem childLast_calm (cx : Cx) (ss : List Node) (hs : elseOkL ss = true) :
    Calm S cx (childLast cx ss).1 :=
  childLast_calm_of (ks := ss) (fun m _ cx h => childExpr_calm m cx h) cx ss (fun _ h => h) hs

/-- What is assumed of the recursive visit. -/
structure CalmRec (S : Panic → Prop) (env : Env) (rec : Rec) : Prop extends GoodRec env rec where
  calm : ∀ vk sc cx n, Inv cx → elseOk n = true → Calm S cx (rec vk sc cx n).1

section
variable {env : Env} {rec : Rec} (hr : CalmRec S env rec)
include hr

theorem walk_calm (vk : VK) (sc : Scope) (cx : Cx) (n : Node) (hi : Inv cx)
    (hs : elseOk n = true) : Calm S cx (walk (rec vk sc) cx n).1 := by
  cases n with
  | mk k as ks =>
    simp only [walk]
    split
    · exact .refl _
    · exact mapA_calm Inv (fun cx n hi _ => (hr.tr vk sc cx n hi).inv hi)
        (fun cx n hi hs => hr.calm vk sc cx n hi hs) ks cx hi (elseOk_kids hs)

theorem dummyExpr_calm (cx : Cx) (e : Node) (hi : Inv cx) (ha : cx.args = [])
    (hs : elseOk e = true) : Calm S cx (dummyExpr rec cx e).1 := by
  unfold dummyExpr
  rw [ha]
  exact hr.calm _ _ _ _ hi hs

theorem dummyWalk_calm (cx : Cx) (e : Node) (hi : Inv cx) (ha : cx.args = [])
    (hs : elseOk e = true) : Calm S cx (dummyWalk rec cx e).1 := by
  unfold dummyWalk
  rw [ha]
  exact walk_calm hr _ _ _ _ hi hs

omit hr in
theorem analysisExit_args {cx : Cx} (h : cx.analysisExit env = true) : cx.args = [] := by
  unfold Cx.analysisExit at h
  simp only [Bool.and_eq_true] at h
  replace h := h.2
  split at h
  · simp only [Bool.and_eq_true] at h
    simpa using h.1.1
  · cases h

omit hr in
theorem isDummy_args {cx : Cx} (h : cx.isDummy = true) : cx.args = [] := by
  unfold Cx.isDummy at h
  simp only [Bool.and_eq_true] at h
  simpa using h.1

theorem expandTarget_calm (cx : Cx) (e : Node) (hi : Inv cx) (hs : elseOk e = true) :
    Calm S cx (expandTarget env rec cx e).1 := by
  unfold expandTarget
  have hc := childExpr_tr (env := env) e cx
  have hs' := hc.elseOk hs
  dsimp only
  split
  · rename_i h
    exact (childExpr_calm e cx hs).trans (dummyExpr_calm hr _ _ (hc.inv hi) (analysisExit_args h) hs')
  · exact (childExpr_calm e cx hs).trans (hr.calm _ _ _ _ (hc.inv hi) hs')

theorem expandExpr_calm (cx : Cx) (e : Node) (hm : cx.mode = .default) (hs : elseOk e = true) :
    Calm S cx (expandExpr env rec cx e).1 := by
  unfold expandExpr
  split
  · split
    · rename_i hv
      extract_lets count cx1 r
      have h1 : Calm S cx cx1 := ⟨Nat.le_refl _, id, fun _ h => .inl h⟩
      refine h1.trans
        (expandTarget_calm hr _ _ ?_ (elseOkL_mem (elseOk_kids hs) _ (List.mem_cons_self ..)))
      intro _ hn
      simp only [cx1] at hn
      simp [Cx.visitLast, hn] at hv
    · exact expandTarget_calm hr _ _ (inv_default hm) hs
  · exact expandTarget_calm hr _ _ (inv_default hm) hs

theorem expandBuild_calm (cx : Cx) (e : Node) (hm : cx.mode = .default) (hs : elseOk e = true) :
    Calm S cx (expandBuild env rec cx e).1 := by
  have h1 := (expandExpr_calm hr cx e hm hs).trans (.build _)
  unfold expandBuild
  dsimp only
  split
  · rename_i h; rw [h] at h1; exact h1
  · rename_i h; rw [h] at h1; exact h1

theorem expandParentExpr_calm (cx : Cx) (e : Node) (b : Bool) (hf : Fresh cx)
    (hs : elseOk e = true) : Calm S cx (expandParentExpr env rec cx e b).1 := by
  unfold expandParentExpr
  have h1 : Calm S cx (if b then { cx with lastMode := .never } else cx) := by
    split
    · exact ⟨Nat.le_refl _, id, fun _ h => .inl h⟩
    · exact .refl _
  have hm := (semi_mode cx b).trans hf.mode
  dsimp only
  generalize (if b then { cx with lastMode := .never } else cx) = cx1 at *
  split
  · rename_i hd
    exact h1.trans (dummyExpr_calm hr _ _ (inv_default hm) (isDummy_args hd) hs)
  · exact h1.trans (expandBuild_calm hr _ _ hm hs)

omit hr in
theorem localAnalysis_calm (cx : Cx) (p : LetPat) : Calm S cx (localAnalysis env cx p).1 := by
  unfold localAnalysis
  split
  · split
    · exact ⟨Nat.le_refl _, id, fun _ h => .inl h⟩
    · exact .refl _
  · exact .refl _

theorem expandParentLocal_calm (cx : Cx) (p : LetPat) (as : List Attr) (ks : List Node)
    (hf : Fresh cx) (hs : elseOkL ks = true) :
    Calm S cx (expandParentLocal env rec cx p as ks).1 := by
  unfold expandParentLocal
  obtain ⟨hb, hm, hp⟩ := localAnalysis_setup (env := env) cx p as ks hf
  have hm := hm.trans hf.mode
  have h1 := localAnalysis_calm (S := S) (env := env) cx p
  dsimp only
  split
  · rename_i hd
    refine h1.trans (dummyWalk_calm hr _ _ (inv_default hm) (isDummy_args hd) ?_)
    rw [elseOk_plain (by simp)]; exact hs
  · split
    · exact h1.trans (.error _ _)
    · refine h1.trans (expandBuild_calm hr _ _ hm ?_)
      rw [elseOkL_cons, Bool.and_eq_true] at hs
      exact hs.1

omit hr in
theorem fnAnalysis_calm (cx : Cx) (ret : Option Ty) (b : Node) :
    Calm S cx (fnAnalysis env cx ret b) := by
  unfold fnAnalysis
  split
  · exact .refl _
  · dsimp only
    split <;> exact ⟨Nat.le_refl _, id, fun _ h => .inl h⟩

theorem expandParentFn_calm (cx : Cx) (name : String) (ret : Option Ty) (as asb : List Attr)
    (ss : List Node) (hf : Fresh cx) (hs : elseOkL ss = true) :
    Calm S cx (expandParentFn env rec cx name ret as asb ss).1 := by
  unfold expandParentFn
  have hb := fnAnalysis_setup (env := env) cx name ret as [.mk .block asb ss] (.mk .block asb ss) hf
  have hc := fnAnalysis_calm (S := S) (env := env) cx ret (.mk .block asb ss)
  have hi := hb.inv hf.mode
  have hfn : ∀ ss, elseOkL ss = true →
      elseOk (.mk (.iFn name ret) as [.mk .block asb ss]) = true := by
    intro ss h
    rw [elseOk_plain (by simp), elseOkL_cons, elseOk_plain (by simp), h]; rfl
  generalize fnAnalysis env cx ret (.mk .block asb ss) = cx1 at *
  dsimp only
  split
  · rename_i hd
    exact hc.trans (dummyWalk_calm hr _ _ hi (isDummy_args hd) (hfn _ hs))
  · generalize hr1 : (if ss.isEmpty = true then (cx1.error .emptyFn, ss) else childLast cx1 ss) = r
    have h1 : T env false cx1 (.mk (.iFn name ret) as [.mk .block asb ss]) r.1
        (.mk (.iFn name ret) as [.mk .block asb r.2]) := by
      refine T.kid0 rfl (.plain rfl (by simp)) ?_
      subst hr1
      split
      · exact .book (.error _ _)
      · exact childLast_tr (k := .block) rfl asb ss (fun m _ => childExpr_tr m) cx1 ss []
          (fun _ h => h)
    have hc1 : Calm S cx1 r.1 := by
      subst hr1
      split
      · exact .error _ _
      · exact childLast_calm _ _ hs
    have hi1 := h1.inv hi
    have hs1 := h1.elseOk (hfn _ hs)
    split
    · rename_i hex
      exact (hc.trans hc1).trans (dummyWalk_calm hr _ _ hi1 (analysisExit_args hex) hs1)
    · have h2 := (hc.trans hc1).trans ((walk_calm hr .visitor {} r.1 _ hi1 hs1).trans (.build _))
      split
      · rename_i h _; rw [h] at h2; exact h2
      · rename_i h _; rw [h] at h2; exact h2

theorem expandParentStmt_calm (cx : Cx) (n : Node) (hf : Fresh cx) (hs : elseOk n = true) :
    Calm S cx (expandParentStmt env rec cx n).1 := by
  unfold expandParentStmt
  split
  · exact expandParentExpr_calm hr _ _ _ hf (elseOkL_mem (elseOk_kids hs) _ (List.mem_cons_self ..))
  · exact expandParentLocal_calm hr _ _ _ _ hf (elseOk_kids hs)
  · exact expandParentFn_calm hr _ _ _ _ _ _ hf
      (elseOk_kids (elseOkL_mem (elseOk_kids hs) _ (List.mem_cons_self ..)))
  · exact .error _ _
  · exact .refl _

omit hr in
theorem makeChild_calm (cx : Cx) (h : Nat) (toks : List Tok) (hc : cx.hasChild = true) :
    Calm S cx (cx.makeChild h toks).1 ∧ (cx.makeChild h toks).1.markers = [] := by
  unfold Cx.makeChild Cx.assert
  rw [hc]
  exact ⟨⟨by simp, id, fun _ h => .inl h⟩, rfl⟩

omit hr in
theorem makeChild_ok_markers {cx : Cx} {h : Nat} {toks : List Tok} {ch : Cx}
    (hm : (cx.makeChild h toks).2 = .ok ch) (he : cx.errs = []) :
    ch.markers.length = cx.markers.length + 1 ∧ ch.panics = [] := by
  unfold Cx.makeChild Cx.assert Cx.panic at hm
  dsimp only at hm
  split at hm
  · obtain ⟨m, _, _, _, h1, _, _, h2, _⟩ := new_args hm
    exact ⟨by rw [h1]; simp, h2⟩
  · obtain ⟨m, _, _, _, h1, _, _, h2, _⟩ := new_args hm
    exact ⟨by rw [h1]; simp, h2⟩

omit hr in
/-- Merging the context of an inner attribute back. -/
theorem join_calm {cx cx1 cx2 ch ch2 : Cx} (h1 : Calm S cx cx1) (hm : cx1.markers = [])
    (h2 : Calm S cx1 cx2) (hch : ch.markers.length = cx.markers.length + 1) (hp : ch.panics = [])
    (h3 : Calm S ch ch2) : Calm S cx (cx2.joinChild ch2) := by
  have hm2 : cx2.markers = [] := by
    have := h2.markers
    rw [hm] at this
    exact List.length_eq_zero_iff.mp (Nat.le_zero.mp this)
  unfold Cx.joinChild Cx.assert
  rw [hm2]
  refine ⟨?_, fun h => h2.child (h1.child h), ?_⟩
  · have := h3.markers
    simp only [List.length_dropLast]
    omega
  · intro p hp'
    simp only [List.isEmpty_nil, if_true, List.mem_append] at hp'
    rcases hp' with h | h
    · exact (h1.trans h2).panics p h
    · rcases h3.panics p h with h | h
      · rw [hp] at h; cases h
      · exact .inr h

omit hr in
theorem findRemoveAttr_isSome {n : Node} {s : String} (h : (n.findRemoveAttr s).isSome = true) :
    n.kind.hasAttrs = true ∧ n.anyAttr s = true := by
  obtain ⟨⟨a, n'⟩, hx⟩ := Option.isSome_iff_exists.mp h
  exact ⟨(Node.findRemoveAttr_some hx).1, (Node.findRemoveAttr_some hx).2.2.1⟩

theorem vsVisitExpr_calm (vk : VK) (sc : Scope) (cx : Cx) (n : Node) (b : Bool)
    (hi : Inv cx)
    (hne : (n.findRemoveAttr NAME).isSome = true → cx.errs = [] ∧ cx.hasChild = true)
    (hs : elseOk n = true) : Calm S cx (vsVisitExpr env rec vk sc cx n b).1 := by
  unfold vsVisitExpr
  split
  · exact walk_calm hr _ _ _ _ hi hs
  · rename_i attr n1 hf
    obtain ⟨he, hcd⟩ := hne (by rw [hf]; rfl)
    have hs1 : elseOk n1 = true := by rw [elseOk_findRemove hf]; exact hs
    split
    · rename_i toks hform
      have hmb := makeChild_book cx (env.hash n1) toks he
      have hmi := hmb.inv hi
      obtain ⟨hmc, hmm⟩ := makeChild_calm (S := S) cx (env.hash n1) toks hcd
      have hw := walk_calm hr vk sc (cx.makeChild (env.hash n1) toks).1 n1 hmi hs1
      have hwt := walk_tr hr.toGoodRec vk sc (cx.makeChild (env.hash n1) toks).1 n1 hmi
      dsimp only
      split
      · exact (hmc.trans hw).trans (.error _ _)
      · rename_i ch hm
        obtain ⟨ms, hn⟩ := makeChild_ok he hm
        obtain ⟨hl, hp⟩ := makeChild_ok_markers hm he
        exact join_calm hmc hmm hw hl hp
          (expandParentExpr_calm hr _ _ _ (new_fresh hn) (hwt.elseOk hs1))
    · exact (walk_calm hr _ _ _ _ hi hs1).trans (.error _ _)

omit hr in
theorem findRemoveAttrs_calm (sc : Scope) (cx : Cx) (n : Node) :
    Calm S cx (findRemoveAttrs sc cx n).1 := by
  unfold findRemoveAttrs
  split
  · exact .refl _
  · extract_lets r
    have h1 : Calm S cx r.1 := by
      unfold r
      split
      · dsimp only
        split
        · exact .refl _
        · exact .error _ _
      · exact .refl _
    split
    · exact h1.trans (.error _ _)
    · exact h1

omit hr in
theorem visitNested_calm (sc : Scope) (cx : Cx) (n : Node) (a : Attr) (hf : sc.foreign = false)
    (hs : elseOk n = true) : Calm S cx (visitNested sc cx n a).1 := by
  unfold visitNested
  rw [hf]
  dsimp only [Bool.not_false, Cx.assert, if_true]
  split
  · exact childExpr_calm _ _ hs
  · exact .error _ _

omit hr in
theorem elseOk_kid_of {n n' : Node} {s : String} {a : Attr} {k : Kind} {as : List Attr}
    {ks : List Node} {c : Node} (hf : n.findRemoveAttr s = some (a, n')) (hn : n' = .mk k as ks)
    (hs : elseOk n = true) (hc : c ∈ ks) : elseOk c = true := by
  subst hn
  rw [← elseOk_findRemove hf] at hs
  exact elseOkL_mem (elseOk_kids hs) c hc

theorem visitLocal_calm (vk : VK) (sc : Scope) (cx : Cx) (n : Node) (hi : Inv cx)
    (hs : elseOk n = true) : Calm S cx (visitLocal rec vk sc cx n).1 := by
  unfold visitLocal
  split
  · exact walk_calm hr _ _ _ _ hi hs
  · split
    · exact .refl _
    · extract_lets r w
      have h1 : T env false cx n r.1 r.2 ∧ Calm S cx r.1 := by
        unfold r
        split
        · exact ⟨.refl, .refl _⟩
        · rename_i hfo
          have hfo : sc.foreign = false := by simpa using hfo
          split
          · rename_i hf
            exact ⟨T.trans (.dropAttr (by simp) hf)
              (T.kid0 rfl (.plain rfl (by simp)) (visitNested_tr _ _ _ _)),
              visitNested_calm _ _ _ _ hfo (elseOk_kid_of hf rfl hs (by simp))⟩
          · rename_i hf
            exact ⟨.dropAttr (by simp) hf, .refl _⟩
          · exact ⟨.refl, .refl _⟩
      exact (h1.2.trans (walk_calm hr _ _ _ _ (h1.1.inv hi) (h1.1.elseOk hs))).trans
        (findRemoveAttrs_calm _ _ _)

theorem vsVisitStmt_calm (vk : VK) (sc : Scope) (cx : Cx) (n : Node) (hi : Inv cx)
    (he : cx.errs = []) (hcd : n.anyAttr NAME = true → cx.hasChild = true)
    (hs : elseOk n = true) : Calm S cx (vsVisitStmt env rec vk sc cx n).1 := by
  unfold vsVisitStmt
  split
  · rename_i semi as e
    refine vsVisitExpr_calm hr _ _ _ _ _ hi (fun h => ⟨he, hcd ?_⟩)
      (elseOkL_mem (elseOk_kids hs) _ (List.mem_cons_self ..))
    have h := findRemoveAttr_isSome h
    rw [← h.2]
    simp only [Node.anyAttr, Node.attrs]
  · split
    · exact visitLocal_calm hr _ _ _ _ hi hs
    · rename_i attr n1 hf
      have hcd := hcd (Node.findRemoveAttr_some hf).2.2.1
      have hs1 : elseOk n1 = true := by rw [elseOk_findRemove hf]; exact hs
      split
      · rename_i toks htoks
        have hmb := makeChild_book cx (env.hash n1) toks he
        have hmi := hmb.inv hi
        obtain ⟨hmc, hmm⟩ := makeChild_calm (S := S) cx (env.hash n1) toks hcd
        have hw := visitLocal_calm hr vk sc (cx.makeChild (env.hash n1) toks).1 n1 hmi hs1
        have hwt := visitLocal_tr hr.toGoodRec vk sc (cx.makeChild (env.hash n1) toks).1 n1 hmi
        dsimp only
        split
        · exact (hmc.trans hw).trans (.error _ _)
        · rename_i ch hm
          obtain ⟨ms, hn⟩ := makeChild_ok he hm
          obtain ⟨hl, hp⟩ := makeChild_ok_markers hm he
          exact join_calm hmc hmm hw hl hp
            (expandParentStmt_calm hr _ _ (new_fresh hn) (hwt.elseOk hs1))
      · exact (visitLocal_calm hr _ _ _ _ hi hs1).trans (.error _ _)
  · exact .refl _

omit hr in
theorem visitMode_calm (sc : Scope) (cx : Cx) (n : Node) : Calm S cx (visitMode sc cx n).1 := by
  unfold visitMode visitReturn visitTry
  repeat' split
  all_goals first
    | exact .refl _
    | exact replaceBoxed_calm _ _
    | exact ⟨Nat.le_refl _, id, fun _ h => .inl h⟩

omit hr in
theorem visitMarker_calm (sc : Scope) (cx : Cx) (n : Node)
    (h : (!sc.foreign || cx.marker != DEFAULT_MARKER) = true) :
    Calm S cx (visitMarker sc cx n).1 := by
  unfold visitMarker
  rw [h]
  simp only [Cx.assert, if_true]
  split
  · split
    · split
      · split
        · exact .refl _
        · exact ⟨Nat.le_refl _, id, fun _ h => .inl h⟩
      · exact .error _ _
    · exact .refl _
  · exact .refl _

omit hr in
theorem preVisit_calm (env : Env) (sc : Scope) (cx : Cx) (n : Node) (hi : Inv cx) (hs : elseOk n = true) :
    let r := visitMode sc cx n
    let r' := if sc.foreign then r else
      match r.2.findRemoveAttr NESTED with
      | some (a, n) => visitNested sc r.1 n a
      | none => r
    Calm S cx r'.1 := by
  intro r
  have h1 : Calm S cx r.1 := visitMode_calm _ _ _
  have hs1 : elseOk r.2 = true := (visitMode_tr (env := env) sc cx n hi).elseOk hs
  dsimp only
  split
  · exact h1
  · rename_i hfo
    have hfo : sc.foreign = false := by simpa using hfo
    split
    · rename_i hf
      exact h1.trans (visitNested_calm _ _ _ _ hfo (by rw [elseOk_findRemove hf]; exact hs1))
    · exact h1

omit hr in
theorem preVisit_name (sc : Scope) (cx : Cx) (n : Node) :
    let r := visitMode sc cx n
    let r' := if sc.foreign then r else
      match r.2.findRemoveAttr NESTED with
      | some (a, n) => visitNested sc r.1 n a
      | none => r
    r'.2.anyAttr NAME = true → n.anyAttr NAME = true := by
  by_cases hs : ∃ b, n.kind = .sExpr b
  · obtain ⟨b, hb⟩ := hs
    cases n with
    | mk k as ks =>
      simp only [Node.kind] at hb
      subst hb
      have h1 : visitMode sc cx (.mk (.sExpr b) as ks) = (cx, .mk (.sExpr b) as ks) := by
        unfold visitMode visitReturn visitTry
        repeat' split
        all_goals first
          | rfl
          | (rename_i h; cases h; done)
          | (rename_i h _; cases h; done)
      have h2 : (Node.mk (.sExpr b) as ks).findRemoveAttr NESTED = none := rfl
      dsimp only
      rw [h1]
      dsimp only
      rw [h2]
      dsimp only
      split <;> exact id
  replace hs : ∀ b, n.kind ≠ .sExpr b := fun b hb => hs ⟨b, hb⟩
  intro r
  have hra : r.2.anyAttr NAME = n.anyAttr NAME := visitMode_anyAttr _ _ _ _ hs
  dsimp only
  split
  · rw [hra]; exact id
  · split
    · rename_i a n1 hf
      intro hc
      rw [← hra]
      obtain ⟨hk, _, _, l1, l2, h1, h2⟩ := Node.findRemoveAttr_some hf
      have hc2 : (visitNested sc r.1 n1 a).2.anyAttr NAME = n1.anyAttr NAME := by
        unfold visitNested
        dsimp only
        split
        · refine Node.anyAttr_congr (childExpr_top _ _).1 (childExpr_top _ _).2 ?_
          rw [h2]
          rintro b hb
          simp only [Node.kind] at hb hk
          rw [hb] at hk
          simp [Kind.hasAttrs] at hk
        · rfl
      rw [hc2, h2] at hc
      have hat : r.2.attrs = l1 ++ a :: l2 := by
        rw [← h1]
        cases hr2 : r.2 with
        | mk k as ks =>
          rw [hr2] at hk
          exact Node.attrs_eq hk _ _
      simp only [Node.anyAttr, Node.attrs_eq hk, hat, AutoEnums.anyAttr, List.any_append,
        List.any_cons, Bool.or_eq_true] at hc ⊢
      rcases hc with h | h
      · exact .inl h
      · exact .inr (.inr h)
    · rw [hra]; exact id

theorem visitExpr_calm (sc : Scope) (cx : Cx) (n : Node) (b : Bool) (hi : Inv cx)
    (he : cx.errs = []) (hs : elseOk n = true) :
    Calm S cx (visitExpr env rec sc cx n b).1 := by
  unfold visitExpr
  extract_lets cx1 isName sc1 cx2 sc2 r r1 r2
  have hc1 : cx1 = cx := by simp [cx1, Cx.assert, Cx.hasError, he]
  have hb2 : Book cx cx2 := by
    unfold cx2
    rw [hc1]
    exact hasChild_book _ _
  have hc2 : Calm S cx cx2 := by
    unfold cx2
    rw [hc1]
    split
    · exact ⟨Nat.le_refl _, fun _ => rfl, fun _ h => .inl h⟩
    · exact .refl _
  have he2 : cx2.errs = [] := by
    unfold cx2; rw [hc1]; split <;> exact he
  have hch : n.anyAttr NAME = true → cx2.hasChild = true := by
    intro h
    unfold cx2 isName
    rw [if_pos h]
  have hf : n.anyAttr NAME = true → sc2.foreign = true := by
    intro h
    unfold sc2 sc1 isName
    simp only [h, if_true]
    unfold Scope.check
    split <;> rfl
  have hi2 := hb2.inv hi
  obtain ⟨ht, hne⟩ := preVisit (env := env) sc2 cx2 n hi2 he2 hf
  have hn := preVisit_name sc2 cx2 n
  have hp : Calm S cx2 r1.1 := preVisit_calm env sc2 cx2 n hi2 hs
  have h2 : Calm S cx2 r2.1 := hp.trans (vsVisitExpr_calm hr _ _ _ _ _ (ht.inv hi2)
    (fun h => have h := (findRemoveAttr_isSome h).2; ⟨hne h, hp.child (hch (hn h))⟩) (ht.elseOk hs))
  split
  · rename_i hcond
    exact ((hc2.trans h2).trans (visitMarker_calm _ _ _ hcond)).trans (findRemoveAttrs_calm _ _ _)
  · exact hc2.trans h2

theorem visitArm_calm (sc : Scope) (cx : Cx) (n : Node) (hi : Inv cx) (hs : elseOk n = true) :
    Calm S cx (visitArm rec sc cx n).1 := by
  unfold visitArm
  split
  · exact .refl _
  · extract_lets r w
    have h1 : T env false cx n r.1 r.2 ∧ Calm S cx r.1 := by
      unfold r
      split
      · exact ⟨.refl, .refl _⟩
      · rename_i hfo
        have hfo : sc.foreign = false := by simpa using hfo
        split
        · rename_i hf
          exact ⟨T.trans (.dropAttr (by simp) hf)
            (T.kid0 rfl (.plain rfl (by simp)) (visitNested_tr _ _ _ _)),
            visitNested_calm _ _ _ _ hfo (elseOk_kid_of hf rfl hs (by simp))⟩
        · rename_i hf
          exact ⟨T.trans (.dropAttr (by simp) hf)
            (T.kid1 rfl (.plain rfl (by simp)) (visitNested_tr _ _ _ _)),
            visitNested_calm _ _ _ _ hfo (elseOk_kid_of hf rfl hs (by simp))⟩
        · rename_i hf
          exact ⟨.dropAttr (by simp) hf, .refl _⟩
        · exact ⟨.refl, .refl _⟩
    exact (h1.2.trans (walk_calm hr _ _ _ _ (h1.1.inv hi) (h1.1.elseOk hs))).trans
      (findRemoveAttrs_calm _ _ _)

omit hr in
theorem hasChild_calm (cx : Cx) (b : Bool) :
    Calm S cx (if b then { cx with hasChild := true } else cx) := by
  split
  · exact ⟨Nat.le_refl _, fun _ => rfl, fun _ h => .inl h⟩
  · exact .refl _

omit hr in
theorem hasChild_set (cx : Cx) {b : Bool} (h : b = true) :
    (if b then { cx with hasChild := true } else cx).hasChild = true := by
  subst h; rfl

theorem visitStmt_calm (sc : Scope) (cx : Cx) (n : Node) (hi : Inv cx) (hs : elseOk n = true) :
    Calm S cx (visitStmt env rec sc cx n).1 := by
  unfold visitStmt
  split
  · exact .refl _
  · rename_i he
    have he := hasError_false he
    split
    · exact visitExpr_calm hr _ _ _ _ hi he (elseOkL_mem (elseOk_kids hs) _ (List.mem_cons_self ..))
    · exact (hasChild_calm cx _).trans
        (vsVisitStmt_calm hr _ _ _ _ ((hasChild_book cx _).inv hi) (hasChild_errs _ he)
          (fun h => hasChild_set cx h) hs)

theorem visitorStep_calm (sc : Scope) (cx : Cx) (n : Node) (hi : Inv cx) (hs : elseOk n = true) :
    Calm S cx (visitorStep env rec sc cx n).1 := by
  unfold visitorStep
  split
  · split
    · exact .refl _
    · rename_i he
      exact visitExpr_calm hr _ _ _ _ hi (hasError_false he) hs
  · split
    · exact visitStmt_calm hr _ _ _ hi hs
    · split
      · exact visitArm_calm hr _ _ _ hi hs
      · exact walk_calm hr _ _ _ _ hi hs

theorem dummyStep_calm (sc : Scope) (cx : Cx) (n : Node) (hi : Inv cx) (hs : elseOk n = true) :
    Calm S cx (dummyStep env rec sc cx n).1 := by
  unfold dummyStep
  split
  · split
    · exact .refl _
    · rename_i he
      have he := hasError_false he
      exact (hasChild_calm cx _).trans
        (vsVisitExpr_calm hr _ _ _ _ _ ((hasChild_book cx _).inv hi)
          (fun h => ⟨hasChild_errs _ he, hasChild_set cx (findRemoveAttr_isSome h).2⟩) hs)
  · split
    · split
      · exact .refl _
      · rename_i he
        have he := hasError_false he
        exact (hasChild_calm cx _).trans
          (vsVisitStmt_calm hr _ _ _ _ ((hasChild_book cx _).inv hi) (hasChild_errs _ he)
            (fun h => hasChild_set cx h) hs)
    · exact walk_calm hr _ _ _ _ hi hs

end

theorem step_calm {env : Env} {rec : Rec} (h : CalmRec S env rec) : CalmRec S env (step env rec) := by
  refine ⟨step_good h.toGoodRec, fun vk sc cx n hi hs => ?_⟩
  cases vk with
  | visitor => exact visitorStep_calm h _ _ _ hi hs
  | dummy => exact dummyStep_calm h _ _ _ hi hs

theorem visit_calm (env : Env) : ∀ f, CalmRec (· = .fuel) env (visit env f) := by
  intro f
  induction f with
  | zero => exact ⟨visit_good env 0, fun _ _ cx n _ _ => .panic rfl⟩
  | succ f ih => exact step_calm ih

end AutoEnums
