import Verif.Lemmas.Calm
import Verif.Lemmas.Balance

/-!
# Every visit terminates (for C19)

With enough fuel the result of a visit does not depend on the fuel, nor on what happens when fuel
runs out.
-/

namespace AutoEnums

open Spec

/-! ## Measures -/

/-- The number of attributes named `s`. -/
def cnt (s : String) : Label → Nat := fun l => l.2.countP (·.is s)

def names (n : Node) : Nat := weigh (cnt NAME) n
def nests (n : Node) : Nat := weigh (cnt NESTED) n

/-- Weights such that rewriting a `return` or `?` yields lighter kids. -/
def szK : Label → Nat
  | (.eReturn, _) => 5
  | (.eTry, _) => 50
  | _ => 1

def size (n : Node) : Nat := weigh szK n

theorem szK_pos (l : Label) : 1 ≤ szK l := by
  unfold szK; split <;> omega

/-- The order of the recursion. -/
def Lt (m n : Node) : Prop :=
  names m < names n ∨
    names m ≤ names n ∧ (nests m < nests n ∨ nests m ≤ nests n ∧ size m < size n)

theorem lt_wf : WellFounded Lt := by
  have h : WellFounded (Prod.Lex (· < ·) (Prod.Lex (· < ·) (· < ·)) :
      Nat × Nat × Nat → Nat × Nat × Nat → Prop) :=
    (Prod.lex Nat.lt_wfRel (Prod.lex Nat.lt_wfRel Nat.lt_wfRel)).wf
  refine Subrelation.wf ?_ (InvImage.wf (fun n : Node => (names n, nests n, size n)) h)
  intro m n hmn
  simp only [InvImage]
  rcases hmn with h1 | ⟨h1, h2⟩
  · exact .left _ _ h1
  · rcases Nat.lt_or_eq_of_le h1 with h1 | h1
    · exact .left _ _ h1
    · rw [h1]
      refine .right _ ?_
      rcases h2 with h2 | ⟨h2, h3⟩
      · exact .left _ _ h2
      · rcases Nat.lt_or_eq_of_le h2 with h2 | h2
        · exact .left _ _ h2
        · rw [h2]; exact .right _ h3

theorem weigh_mem {w : Label → Nat} {ks : List Node} {c : Node} (h : c ∈ ks) :
    weigh w c ≤ weighL w ks := by
  induction ks with
  | nil => cases h
  | cons a l ih =>
    rw [weighL_cons]
    cases h with
    | head => omega
    | tail _ h => have := ih h; omega

theorem cnt_findRemove {n n' : Node} {s t : String} {a : Attr}
    (h : n.findRemoveAttr s = some (a, n')) :
    weigh (cnt t) n = weigh (cnt t) n' + if a.is t then 1 else 0 := by
  obtain ⟨_, _, _, l1, l2, h1, h2⟩ := Node.findRemoveAttr_some h
  cases n with
  | mk k as ks =>
    simp only [Node.kind, Node.kids, Node.rawAttrs] at h1 h2
    subst h1 h2
    simp only [weigh_mk, cnt, List.countP_append, List.countP_cons]
    omega

theorem cnt_next (s : String) (cx : Cx) (as : List Attr) (e : Node) :
    weigh (cnt s) (cx.nextExprAttrs as e).2 = cnt s (.eCall, as) + weigh (cnt s) e := by
  rw [weigh_next]; simp [cnt]

/-- Attributes are never added. -/
theorem T.cnt_le {env : Env} {b : Bool} {cx cx' : Cx} {n n' : Node} (h : T env b cx n cx' n')
    (s : String) : weigh (cnt s) n' ≤ weigh (cnt s) n := by
  induction h with
  | refl => exact Nat.le_refl _
  | trans _ _ h1 h2 => exact Nat.le_trans h2 h1
  | book => exact Nat.le_refl _
  | kid _ _ _ ih => simp only [weigh_mk, weighL_append, weighL_cons]; omega
  | wrapVal => simp [Cx.nextExpr, cnt_next]; simp [cnt]
  | wrapArm => simp [Cx.nextExpr, cnt_next]; simp [cnt]
  | wrapBlock => simp [Cx.nextExpr, cnt_next, tailS, exprBlock]; simp [cnt]
  | fill => simp [Cx.nextExpr, cnt_next, unitE]; simp [cnt]
  | marker => simp [cnt_next]; simp [cnt]
  | tryOp =>
    simp [Cx.nextExpr, cnt_next, tryArms, exprBlock, semiS, pathE]; simp [cnt]
  | dropAttr _ hf => have := cnt_findRemove (t := s) hf; omega
  | unmark => simp
  | badMark => simp [failedMarker, cnt]
  | dropRec hf => have := cnt_findRemove (t := s) hf; omega
  | child _ hf _ _ _ _ _ ih1 ih2 => have := cnt_findRemove (t := s) hf; omega
  | exPlain _ _ ih => exact ih
  | exErr _ _ ih => exact ih
  | exTwo _ _ _ ih => exact ih
  | exExpr _ _ ih =>
    simp [buildExpr, exprBlock, tailS, Cx.buildEnum]
    simpa [cnt] using ih
  | exKid _ _ ih => simp only [weigh_mk, weighL_cons]; omega
  | exPat _ _ ih => simpa [cnt] using ih
  | exFn _ _ ih =>
    simp [Cx.buildEnum] at ih ⊢
    simpa [cnt] using ih
  | exSetup _ _ ih => exact ih

/-! ## Convergence -/

/-- The visitors with recursion bounded by fuel; `b` selects what happens when fuel runs out: a
panic or nothing. -/
def visitB (env : Env) (b : Bool) : Nat → Rec
  | 0 => fun _ _ cx n => (if b then cx.panic .fuel else cx, n)
  | f + 1 => step env (visitB env b f)

theorem visitB_true (env : Env) : ∀ f, visitB env true f = visit env f
  | 0 => rfl
  | f + 1 => by
    funext vk sc cx n
    simp only [visitB, visitB_true env f]
    rfl

theorem visitB_good (env : Env) (b : Bool) : ∀ f, GoodRec env (visitB env b f) := by
  intro f
  induction f with
  | zero =>
    refine ⟨fun _ _ cx n _ => ?_, fun _ _ _ _ _ _ => rfl, fun _ _ _ => ?_,
      fun _ _ _ _ h => h, fun _ _ _ _ ss => ⟨ss, rfl⟩⟩
    · simp only [visitB]
      split
      · exact .book (.panic _ _)
      · exact .refl
    · simp only [visitB]
      split <;> rfl
  | succ f ih => exact step_good ih

theorem visitB_calm (env : Env) : ∀ f, CalmRec (fun _ => False) env (visitB env false f) := by
  intro f
  induction f with
  | zero => exact ⟨visitB_good env false 0, fun _ _ cx n _ _ => .refl _⟩
  | succ f ih => exact step_calm ih

/-- With enough fuel `g` has a value that depends neither on the fuel nor on what happens when it
runs out. -/
def Conv {α : Type} (g : Bool → Nat → α) : Prop := ∃ F r, ∀ f, F ≤ f → ∀ b, g b f = r

namespace Conv

variable {α β : Type}

theorem const (r : α) : Conv (fun _ _ => r) := ⟨0, r, fun _ _ _ => rfl⟩

theorem bind {g : Bool → Nat → α} {h : Bool → Nat → α → β} (hg : Conv g)
    (hh : ∀ r, (∃ b f, g b f = r) → Conv fun b f => h b f r) :
    Conv fun b f => h b f (g b f) := by
  obtain ⟨F, r, hF⟩ := hg
  obtain ⟨F', r', hF'⟩ := hh r ⟨true, F, hF F (Nat.le_refl _) true⟩
  refine ⟨max F F', r', fun f hf b => ?_⟩
  show h b f (g b f) = r'
  rw [hF f (by omega) b]
  exact hF' f (by omega) b

theorem map {g : Bool → Nat → α} (h : α → β) (hg : Conv g) : Conv fun b f => h (g b f) :=
  hg.bind (h := fun _ _ r => h r) fun r _ => const (h r)

end Conv

/-- The visits of `m` terminate. -/
def Halts (env : Env) (m : Node) : Prop :=
  ∀ vk sc cx, Inv cx → Conv fun b f => visitB env b f vk sc cx m

section
variable {env : Env}

theorem mapA_conv {l : List Node} (H : ∀ c ∈ l, Halts env c) (vk : VK) (sc : Scope) :
    ∀ cx, Inv cx → Conv fun b f => mapA (visitB env b f vk sc) cx l := by
  induction l with
  | nil => intro cx _; exact .const _
  | cons a l ih =>
    intro cx hi
    simp only [mapA]
    refine Conv.bind (h := fun b f r => ((mapA (visitB env b f vk sc) r.1 l).1,
      r.2 :: (mapA (visitB env b f vk sc) r.1 l).2)) (H a (by simp) vk sc cx hi) ?_
    rintro r ⟨b, f, rfl⟩
    exact (ih (fun c hc => H c (by simp [hc])) _ (((visitB_good env b f).tr vk sc cx a hi).inv hi)).map
      (fun r => (r.1, _ :: r.2))

theorem walk_conv {m : Node} (H : ∀ c ∈ m.kids, Halts env c) (vk : VK) (sc : Scope) (cx : Cx)
    (hi : Inv cx) : Conv fun b f => walk (visitB env b f vk sc) cx m := by
  cases m with
  | mk k as ks =>
    simp only [walk]
    split
    · exact .const _
    · exact (mapA_conv H vk sc cx hi).map (fun r : Cx × List Node => (r.1, Node.mk k as r.2))

theorem names_kid {m c : Node} (h : c ∈ m.kids) : names c ≤ names m := by
  cases m with
  | mk k as ks =>
    have := weigh_mem (w := cnt NAME) h
    simp only [names, weigh_mk, Node.kids] at *
    omega

theorem nests_kid {m c : Node} (h : c ∈ m.kids) : nests c ≤ nests m := by
  cases m with
  | mk k as ks =>
    have := weigh_mem (w := cnt NESTED) h
    simp only [nests, weigh_mk, Node.kids] at *
    omega

theorem size_kid {m c : Node} (h : c ∈ m.kids) : size c < size m := by
  cases m with
  | mk k as ks =>
    have := weigh_mem (w := szK) h
    have := szK_pos (k, as)
    simp only [size, weigh_mk, Node.kids] at *
    omega

theorem T.names_le {b : Bool} {cx cx' : Cx} {n n' : Node} (h : T env b cx n cx' n') :
    names n' ≤ names n := h.cnt_le NAME

theorem T.nests_le {b : Bool} {cx cx' : Cx} {n n' : Node} (h : T env b cx n cx' n') :
    nests n' ≤ nests n := h.cnt_le NESTED

/-! ### The expansion of an attribute -/

theorem dummyWalk_conv {e : Node} (H : ∀ m, names m ≤ names e → Halts env m) (cx : Cx)
    (hi : Inv cx) : Conv fun b f => dummyWalk (visitB env b f) cx e := by
  unfold dummyWalk
  exact walk_conv (fun c hc => H c (names_kid hc)) _ _ _ ((Book.assert cx _ _).inv hi)

theorem expandTarget_conv {e : Node} (H : ∀ m, names m ≤ names e → Halts env m) (cx : Cx)
    (hi : Inv cx) : Conv fun b f => expandTarget env (visitB env b f) cx e := by
  unfold expandTarget
  have hc := childExpr_tr (env := env) e cx
  dsimp only
  split
  · exact H _ hc.names_le _ _ _ ((Book.assert _ _ _).inv (hc.inv hi))
  · exact H _ hc.names_le _ _ _ (hc.inv hi)

theorem expandExpr_conv {e : Node} (H : ∀ m, names m ≤ names e → Halts env m) (cx : Cx)
    (hm : cx.mode = .default) : Conv fun b f => expandExpr env (visitB env b f) cx e := by
  unfold expandExpr
  split
  · split
    · rename_i i as body hv
      dsimp only
      refine (expandTarget_conv (fun m hm => H m (Nat.le_trans hm ?_)) _ ?_).map
        (fun r : Cx × Node => (r.1, Node.mk (.eClosure i) as [r.2]))
      · exact names_kid (List.mem_cons_self ..)
      · intro _ hn
        simp only at hn
        simp [Cx.visitLast, hn] at hv
    · exact expandTarget_conv H _ (inv_default hm)
  · exact expandTarget_conv H _ (inv_default hm)

theorem expandBuild_conv {e : Node} (H : ∀ m, names m ≤ names e → Halts env m) (cx : Cx)
    (hm : cx.mode = .default) : Conv fun b f => expandBuild env (visitB env b f) cx e := by
  unfold expandBuild
  exact (expandExpr_conv H cx hm).map (fun r => match r.1.build with
    | (cx, some item) => (cx, buildExpr item r.2)
    | (cx, none) => (cx, r.2))

theorem expandParentExpr_conv {e : Node} (H : ∀ m, names m ≤ names e → Halts env m) (cx : Cx)
    (semi : Bool) (hf : Fresh cx) :
    Conv fun b f => expandParentExpr env (visitB env b f) cx e semi := by
  unfold expandParentExpr
  have hm := (semi_mode cx semi).trans hf.mode
  dsimp only
  generalize (if semi then { cx with lastMode := .never } else cx) = cx1 at *
  split
  · exact H _ (Nat.le_refl _) _ _ _ ((Book.assert _ _ _).inv (inv_default hm))
  · exact expandBuild_conv H _ hm

theorem names_mk (k : Kind) (as : List Attr) (ks : List Node) :
    names (.mk k as ks) = as.countP (·.is NAME) + weighL (cnt NAME) ks := by
  simp [names, cnt]

theorem nests_mk (k : Kind) (as : List Attr) (ks : List Node) :
    nests (.mk k as ks) = as.countP (·.is NESTED) + weighL (cnt NESTED) ks := by
  simp [nests, cnt]

theorem expandParentLocal_conv {p : LetPat} {as : List Attr} {ks : List Node}
    (H : ∀ m, names m ≤ names (.mk (.sLocal p) as ks) → Halts env m) (cx : Cx) (hf : Fresh cx) :
    Conv fun b f => expandParentLocal env (visitB env b f) cx p as ks := by
  unfold expandParentLocal
  obtain ⟨hb, hm, hp⟩ := localAnalysis_setup (env := env) cx p as ks hf
  have hm := hm.trans hf.mode
  dsimp only
  split
  · refine dummyWalk_conv (fun m hm => H m (Nat.le_trans hm ?_)) _ (inv_default hm)
    simp [names_mk]
  · split
    · exact .const _
    · refine (expandBuild_conv (fun m hm => H m (Nat.le_trans hm ?_)) _ hm).map
        (fun r : Cx × Node => (r.1, Node.mk (.sLocal _) as (r.2 :: _)))
      exact names_kid (List.mem_cons_self ..)

theorem expandParentFn_conv {name : String} {ret : Option Ty} {as asb : List Attr}
    {ss : List Node}
    (H : ∀ m, names m ≤ names (.mk (.iFn name ret) as [.mk .block asb ss]) → Halts env m)
    (cx : Cx) (hf : Fresh cx) :
    Conv fun b f => expandParentFn env (visitB env b f) cx name ret as asb ss := by
  unfold expandParentFn
  have hb := fnAnalysis_setup (env := env) cx name ret as [.mk .block asb ss] (.mk .block asb ss) hf
  have hi := hb.inv hf.mode
  generalize fnAnalysis env cx ret (.mk .block asb ss) = cx1 at *
  dsimp only
  split
  · exact dummyWalk_conv H _ hi
  · generalize hr1 : (if ss.isEmpty = true then (cx1.error .emptyFn, ss) else childLast cx1 ss) = r
    have h1 : T env false cx1 (.mk (.iFn name ret) as [.mk .block asb ss]) r.1
        (.mk (.iFn name ret) as [.mk .block asb r.2]) := by
      refine T.kid0 rfl (.plain rfl (by simp)) ?_
      subst hr1
      split
      · exact .book (.error _ _)
      · exact childLast_tr (k := .block) rfl asb ss (fun m _ => childExpr_tr m) cx1 ss []
          (fun _ h => h)
    have hi1 := h1.inv hi
    split
    · exact dummyWalk_conv (fun m hm => H m (Nat.le_trans hm h1.names_le)) _ hi1
    · exact (walk_conv (fun c hc => H c (Nat.le_trans (names_kid hc) h1.names_le)) _ _ _ hi1).map
        (fun w : Cx × Node => match w.1.build, w.2 with
          | (cx, some item), .mk k as [.mk .block asb ss] =>
            (cx, Node.mk k as [.mk .block asb (item :: ss)])
          | (cx, _), n => (cx, n))

theorem expandParentStmt_conv {n : Node} (H : ∀ m, names m ≤ names n → Halts env m)
    (cx : Cx) (hf : Fresh cx) : Conv fun b f => expandParentStmt env (visitB env b f) cx n := by
  unfold expandParentStmt
  split
  · refine (expandParentExpr_conv (fun m hm => H m (Nat.le_trans hm ?_)) cx _ hf).map
      (fun r : Cx × Node => (r.1, Node.mk (.sExpr _) _ [r.2]))
    exact names_kid (List.mem_cons_self ..)
  · exact expandParentLocal_conv H cx hf
  · exact expandParentFn_conv H cx hf
  · exact .const _
  · exact .const _

/-! ### The visitors -/

theorem names_remove {n n' : Node} {s : String} {a : Attr} (h : n.findRemoveAttr s = some (a, n')) :
    names n' ≤ names n ∧ nests n' ≤ nests n ∧ (s = NAME → names n' < names n) ∧
      (s = NESTED → nests n' < nests n) := by
  have h1 := cnt_findRemove (t := NAME) h
  have h2 := cnt_findRemove (t := NESTED) h
  have h3 := (Node.findRemoveAttr_some h).2.1
  simp only [names, nests]
  refine ⟨by omega, by omega, ?_, ?_⟩
  · rintro rfl; simp only [h3, if_true] at h1; omega
  · rintro rfl; simp only [h3, if_true] at h2; omega

/-- Visiting the kids of `n` decreases the measure of `N`, also after removing a `#[nested]` and
expanding. -/
def Near (N n : Node) : Prop :=
  names n < names N ∨ names n ≤ names N ∧ nests n ≤ nests N ∧ ∀ c ∈ n.kids, Lt c N

variable {N : Node}

theorem Near.kids {n : Node} (h : Near N n) : ∀ c ∈ n.kids, Lt c N := by
  rcases h with h | h
  · exact fun c hc => .inl (Nat.lt_of_le_of_lt (names_kid hc) h)
  · exact h.2.2

theorem Near.names {n : Node} (h : Near N n) : names n ≤ names N := by
  rcases h with h | h
  · omega
  · exact h.1

theorem Near.of_size {n : Node} (h1 : AutoEnums.names n ≤ AutoEnums.names N)
    (h2 : nests n ≤ nests N) (h3 : size n ≤ size N) : Near N n :=
  .inr ⟨h1, h2, fun _ hc => .inr ⟨Nat.le_trans (names_kid hc) h1,
    .inr ⟨Nat.le_trans (nests_kid hc) h2, Nat.lt_of_lt_of_le (size_kid hc) h3⟩⟩⟩

theorem Near.of_lt {m : Node} (h : AutoEnums.names m < AutoEnums.names N ∨
    AutoEnums.names m ≤ AutoEnums.names N ∧ nests m < nests N) : Near N m := by
  rcases h with h | h
  · exact .inl h
  · exact .inr ⟨h.1, Nat.le_of_lt h.2, fun c hc => .inr ⟨Nat.le_trans (names_kid hc) h.1,
      .inl (Nat.lt_of_le_of_lt (nests_kid hc) h.2)⟩⟩

/-- After removing `#[nested]` anything may be rewritten. -/
theorem Near.nested {n n1 n2 : Node} {a : Attr} {b : Bool} {cx cx' : Cx} (h : Near N n)
    (hf : n.findRemoveAttr NESTED = some (a, n1)) (ht : T env b cx n1 cx' n2) : Near N n2 := by
  obtain ⟨h1, h2, _, h4⟩ := names_remove hf
  have h4 := h4 rfl
  have h5 := ht.names_le
  have h6 := ht.nests_le
  refine Near.of_lt ?_
  rcases h with h | h
  · left; omega
  · right; omega

variable (H : ∀ m, Lt m N → Halts env m)
include H

theorem vsVisitExpr_conv (vk : VK) (sc : Scope) (cx : Cx) (n : Node) (semi : Bool) (hi : Inv cx)
    (hne : n.anyAttr NAME = true → cx.errs = []) (hn : Near N n) :
    Conv fun b f => vsVisitExpr env (visitB env b f) vk sc cx n semi := by
  unfold vsVisitExpr
  split
  · exact walk_conv (fun c hc => H c (hn.kids c hc)) _ _ _ hi
  · rename_i attr n1 hf
    have he := hne (Node.findRemoveAttr_some hf).2.2.1
    have hlt : names n1 < names N := Nat.lt_of_lt_of_le ((names_remove hf).2.2.1 rfl) hn.names
    have hk : ∀ c ∈ n1.kids, Halts env c :=
      fun c hc => H c (.inl (Nat.lt_of_le_of_lt (names_kid hc) hlt))
    split
    · rename_i toks hform
      have hmi := (makeChild_book cx (env.hash n1) toks he).inv hi
      dsimp only
      split
      · exact (walk_conv hk vk sc _ hmi).map (fun w : Cx × Node => (w.1.error _, w.2))
      · rename_i ch hm
        obtain ⟨ms, hnew⟩ := makeChild_ok he hm
        refine Conv.bind (h := fun b f w =>
          (w.1.joinChild (expandParentExpr env (visitB env b f) ch w.2 semi).1,
            (expandParentExpr env (visitB env b f) ch w.2 semi).2)) (walk_conv hk vk sc _ hmi) ?_
        rintro w ⟨b, f, rfl⟩
        have hw := walk_tr (visitB_good env b f) vk sc _ n1 hmi
        exact (expandParentExpr_conv
          (fun m hm => H m (.inl (Nat.lt_of_le_of_lt (Nat.le_trans hm hw.names_le) hlt))) _ _
          (new_fresh hnew)).map (fun r : Cx × Node => (Cx.joinChild _ r.1, r.2))
    · dsimp only
      exact (walk_conv hk vk sc _ hi).map (fun w : Cx × Node => (w.1.error _, w.2))

theorem visitLocal_conv (vk : VK) (sc : Scope) (cx : Cx) (n : Node) (hi : Inv cx) (hn : Near N n) :
    Conv fun b f => visitLocal (visitB env b f) vk sc cx n := by
  unfold visitLocal
  split
  · exact walk_conv (fun c hc => H c (hn.kids c hc)) _ _ _ hi
  · split
    · exact .const _
    · extract_lets r
      have h1 : T env false cx n r.1 r.2 ∧ Near N r.2 := by
        unfold r
        split
        · exact ⟨.refl, hn⟩
        · split
          · rename_i hf
            refine ⟨T.trans (.dropAttr (by simp) hf)
              (T.kid0 rfl (.plain rfl (by simp)) (visitNested_tr sc cx _ _)), ?_⟩
            exact hn.nested (env := env) hf
              (T.kid0 rfl (.plain rfl (by simp)) (visitNested_tr sc cx _ _))
          · rename_i hf
            exact ⟨.dropAttr (by simp) hf, hn.nested (env := env) (cx := cx) hf .refl⟩
          · exact ⟨.refl, hn⟩
      dsimp only
      exact (walk_conv (fun c hc => H c (h1.2.kids c hc)) _ _ _ (h1.1.inv hi)).map
        (fun w : Cx × Node => findRemoveAttrs sc w.1 w.2)

theorem vsVisitStmt_conv (vk : VK) (sc : Scope) (cx : Cx) (n : Node) (hi : Inv cx)
    (he : cx.errs = []) (h1 : names n ≤ names N) (h2 : nests n ≤ nests N) (h3 : size n ≤ size N) :
    Conv fun b f => vsVisitStmt env (visitB env b f) vk sc cx n := by
  unfold vsVisitStmt
  split
  · rename_i semi as e
    have hm : e ∈ (Node.mk (.sExpr semi) as [e]).kids := List.mem_cons_self ..
    exact (vsVisitExpr_conv H vk sc cx e semi hi (fun _ => he)
      (.of_size (Nat.le_trans (names_kid hm) h1) (Nat.le_trans (nests_kid hm) h2)
        (Nat.le_trans (Nat.le_of_lt (size_kid hm)) h3))).map
      (fun r : Cx × Node => (r.1, Node.mk (.sExpr semi) as [r.2]))
  · split
    · exact visitLocal_conv H vk sc cx _ hi (.of_size h1 h2 h3)
    · rename_i attr n1 hf
      have hlt : names n1 < names N := Nat.lt_of_lt_of_le ((names_remove hf).2.2.1 rfl) h1
      split
      · rename_i toks htoks
        have hmi := (makeChild_book cx (env.hash n1) toks he).inv hi
        have hc := visitLocal_conv H vk sc (cx.makeChild (env.hash n1) toks).1 n1 hmi (.inl hlt)
        dsimp only
        split
        · exact hc.map (fun w : Cx × Node => (w.1.error _, w.2))
        · rename_i ch hm
          obtain ⟨ms, hnew⟩ := makeChild_ok he hm
          refine Conv.bind (h := fun b f w =>
            (w.1.joinChild (expandParentStmt env (visitB env b f) ch w.2).1,
              (expandParentStmt env (visitB env b f) ch w.2).2)) hc ?_
          rintro w ⟨b, f, rfl⟩
          have hw := visitLocal_tr (visitB_good env b f) vk sc _ n1 hmi
          exact (expandParentStmt_conv
            (fun m hm => H m (.inl (Nat.lt_of_le_of_lt (Nat.le_trans hm hw.names_le) hlt))) _
            (new_fresh hnew)).map (fun r : Cx × Node => (Cx.joinChild _ r.1, r.2))
      · dsimp only
        exact (visitLocal_conv H vk sc cx n1 hi (.inl hlt)).map (fun w : Cx × Node => (w.1.error _, w.2))
  · exact .const _

omit H in
theorem size_next (cx : Cx) (as : List Attr) (e : Node) :
    size (cx.nextExprAttrs as e).2 = 2 + size e := by
  simp only [size, weigh_next, szK]

omit H in
theorem visitMode_near (env : Env) (sc : Scope) (cx : Cx) (n : Node) (hi : Inv cx)
    (h1 : names n ≤ names N) (h2 : nests n ≤ nests N) (h3 : size n ≤ size N) :
    Near N (visitMode sc cx n).2 := by
  have ht := visitMode_tr (env := env) sc cx n hi
  have hn := Nat.le_trans ht.names_le h1
  have hm := Nat.le_trans ht.nests_le h2
  have key : ∀ c ∈ (visitMode sc cx n).2.kids, size c < size n := by
    have hself : ∀ c ∈ n.kids, size c < size n := fun c hc => size_kid hc
    unfold visitMode
    split
    · unfold visitReturn
      split
      · split
        · rename_i as ks
          dsimp only [Node.kids]
          unfold Cx.replaceBoxed
          split
          · intro c hc
            simp only [Cx.nextExpr, List.mem_singleton] at hc
            subst hc
            rw [size_next]
            simp [size, unitE, szK]
          · rename_i e rest
            split
            · exact hself
            · intro c hc
              dsimp only at hc
              rcases List.mem_cons.mp hc with rfl | hc
              · rw [Cx.nextExpr, size_next]
                simp only [size, weigh_mk, weighL_cons, szK]; omega
              · exact hself c (List.mem_cons_of_mem _ hc)
        · exact hself
      · exact hself
    · unfold visitTry
      split
      · split
        · split
          · exact hself
          · rename_i as e _ _
            intro c hc
            dsimp only [Node.kids] at hc
            rcases List.mem_cons.mp hc with rfl | hc
            · exact hself _ (List.mem_cons_self ..)
            · have hcs : size c ≤ 20 := by
                simp only [tryArms, List.mem_cons, List.not_mem_nil, or_false] at hc
                rcases hc with rfl | rfl
                · simp [size, pathE, szK]
                · simp only [size, weigh_mk, weighL_cons, weighL_nil, exprBlock, semiS, pathE,
                    Cx.nextExpr, weigh_next, szK]
                  omega
              have : 50 ≤ size (.mk .eTry as [e]) := by
                simp only [size, weigh_mk, szK]; omega
              omega
        · exact hself
      · exact hself
    · exact hself
  exact .inr ⟨hn, hm, fun c hc => .inr ⟨Nat.le_trans (names_kid hc) hn,
    .inr ⟨Nat.le_trans (nests_kid hc) hm, Nat.lt_of_lt_of_le (key c hc) h3⟩⟩⟩

theorem visitExpr_conv (sc : Scope) (cx : Cx) (n : Node) (semi : Bool) (hi : Inv cx)
    (he : cx.errs = []) (h1 : names n ≤ names N) (h2 : nests n ≤ nests N) (h3 : size n ≤ size N) :
    Conv fun b f => visitExpr env (visitB env b f) sc cx n semi := by
  unfold visitExpr
  extract_lets cx1 isName sc1 cx2 sc2 r r1
  have hb1 : Book cx cx1 := .assert _ _ _
  have hb2 : Book cx1 cx2 := hasChild_book _ _
  have he1 : cx1.errs = [] := by
    unfold cx1 Cx.assert Cx.panic
    split <;> exact he
  have he2 : cx2.errs = [] := hasChild_errs _ he1
  have hf : n.anyAttr NAME = true → sc2.foreign = true := by
    intro h
    unfold sc2 sc1 isName
    simp only [h, if_true]
    unfold Scope.check
    split <;> rfl
  have hi2 := (hb1.trans hb2).inv hi
  obtain ⟨ht, hne⟩ := preVisit (env := env) sc2 cx2 n hi2 he2 hf
  have hn : Near N r.2 := visitMode_near env sc2 cx2 n hi2 h1 h2 h3
  have hn1 : Near N r1.2 := by
    unfold r1
    split
    · exact hn
    · split
      · rename_i hfr
        exact hn.nested hfr (visitNested_tr (env := env) _ _ _ _)
      · exact hn
  dsimp only
  exact (vsVisitExpr_conv H .visitor sc2 r1.1 r1.2 semi (ht.inv hi2) hne hn1).map
    (fun r => if (!sc2.foreign || r.1.marker != DEFAULT_MARKER) = true then
      findRemoveAttrs sc2 (visitMarker sc2 r.1 r.2).1 (visitMarker sc2 r.1 r.2).2 else r)

theorem visitArm_conv (sc : Scope) (cx : Cx) (n : Node) (hi : Inv cx) (hn : Near N n) :
    Conv fun b f => visitArm (visitB env b f) sc cx n := by
  unfold visitArm
  split
  · exact .const _
  · extract_lets r
    have h1 : T env false cx n r.1 r.2 ∧ Near N r.2 := by
      unfold r
      split
      · exact ⟨.refl, hn⟩
      · split
        · rename_i hf
          refine ⟨T.trans (.dropAttr (by simp) hf)
            (T.kid0 rfl (.plain rfl (by simp)) (visitNested_tr sc cx _ _)), ?_⟩
          exact hn.nested (env := env) hf
            (T.kid0 rfl (.plain rfl (by simp)) (visitNested_tr sc cx _ _))
        · rename_i hf
          refine ⟨T.trans (.dropAttr (by simp) hf)
            (T.kid1 rfl (.plain rfl (by simp)) (visitNested_tr sc cx _ _)), ?_⟩
          exact hn.nested (env := env) hf
            (T.kid1 rfl (.plain rfl (by simp)) (visitNested_tr sc cx _ _))
        · rename_i hf
          exact ⟨.dropAttr (by simp) hf, hn.nested (env := env) (cx := cx) hf .refl⟩
        · exact ⟨.refl, hn⟩
    dsimp only
    exact (walk_conv (fun c hc => H c (h1.2.kids c hc)) _ _ _ (h1.1.inv hi)).map
      (fun w : Cx × Node => findRemoveAttrs sc w.1 w.2)

theorem visitStmt_conv (sc : Scope) (cx : Cx) (n : Node) (hi : Inv cx)
    (h1 : names n ≤ names N) (h2 : nests n ≤ nests N) (h3 : size n ≤ size N) :
    Conv fun b f => visitStmt env (visitB env b f) sc cx n := by
  unfold visitStmt
  split
  · exact .const _
  · rename_i he
    have he := hasError_false he
    split
    · rename_i semi as e
      have hm : e ∈ (Node.mk (.sExpr semi) as [e]).kids := List.mem_cons_self ..
      exact (visitExpr_conv H sc cx e semi hi he
        (Nat.le_trans (names_kid hm) h1) (Nat.le_trans (nests_kid hm) h2)
          (Nat.le_trans (Nat.le_of_lt (size_kid hm)) h3)).map
        (fun r : Cx × Node => (r.1, Node.mk (.sExpr semi) as [r.2]))
    · exact vsVisitStmt_conv H _ _ _ _ ((hasChild_book cx _).inv hi) (hasChild_errs _ he) h1 h2 h3

omit H in
theorem visit_halts (env : Env) (n : Node) : Halts env n := by
  induction n using lt_wf.induction with
  | _ N H =>
  intro vk sc cx hi
  have hle := Nat.le_refl (names N)
  have hle2 := Nat.le_refl (nests N)
  have hle3 := Nat.le_refl (size N)
  have hnear : Near N N := .of_size hle hle2 hle3
  have hwalk : ∀ vk sc, Conv fun b f => walk (visitB env b f vk sc) cx N := fun vk sc =>
    walk_conv (fun c hc => H c (hnear.kids c hc)) vk sc cx hi
  have hstep : Conv fun b f => step env (visitB env b f) vk sc cx N := by
    cases vk with
    | visitor =>
      simp only [step, visitorStep]
      split
      · split
        · exact .const _
        · rename_i he
          exact visitExpr_conv H _ _ _ _ hi (hasError_false he) hle hle2 hle3
      · split
        · exact visitStmt_conv H _ _ _ hi hle hle2 hle3
        · split
          · exact visitArm_conv H _ _ _ hi hnear
          · exact hwalk _ _
    | dummy =>
      simp only [step, dummyStep]
      split
      · split
        · exact .const _
        · rename_i he
          have he := hasError_false he
          exact vsVisitExpr_conv H _ _ _ _ _ ((hasChild_book cx _).inv hi)
            (fun _ => hasChild_errs _ he) hnear
      · split
        · split
          · exact .const _
          · rename_i he
            have he := hasError_false he
            exact vsVisitStmt_conv H _ _ _ _ ((hasChild_book cx _).inv hi) (hasChild_errs _ he)
              hle hle2 hle3
        · exact hwalk _ _
  obtain ⟨F, r, hF⟩ := hstep
  refine ⟨F + 1, r, fun f hf b => ?_⟩
  obtain ⟨f, rfl⟩ : ∃ g, f = g + 1 := ⟨f - 1, by omega⟩
  exact hF f (by omega) b

end

end AutoEnums
