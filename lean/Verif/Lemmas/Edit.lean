import Verif.Lemmas.Enums
import Verif.Spec.Edit

/-! # Traces are edits (for C04, C10, C23, C24) -/

namespace AutoEnums

open Spec

theorem Spec.Edit.trans {A : Allow} {a b c : Node} (h : Edit A a b) (h' : Edit A b c) :
    Edit A a c := by
  induction h' with
  | refl => exact h
  | step _ hs ih => exact .step ih hs

theorem Spec.Edit.one {A : Allow} {a b : Node} (h : Step A a b) : Edit A a b := .step (.refl _) h

theorem Spec.Edit.kid {A : Allow} {n n' : Node} {k : Kind} {as : List Attr} {pre post : List Node}
    (hk : k.isOpaque = false) (h : Edit A n n') :
    Edit A (.mk k as (pre ++ n :: post)) (.mk k as (pre ++ n' :: post)) := by
  induction h with
  | refl => exact .refl _
  | step _ hs ih => exact .step ih (.kid hk hs)

/-- The edits of the context are allowed. -/
structure Permit (A : Allow) (cx : Cx) : Prop where
  ident : ∃ h, cx.ident = enumIdent h
  variants : cx.variants = (List.range cx.variants.length).map variantIdent
  marks : A.marks cx.ident cx.marker
  edits : cx.lastMode = .never ∨ (cx.mode ≠ .try_ → A.wraps cx.ident) ∧
    ((cx.mode = .default ∨ cx.mode = .try_) → A.tries cx.ident)

/-- The edits of inner attributes are allowed. -/
def PermitInner (env : Env) (inp : Node) (A : Allow) : Prop :=
  ∀ a ∈ allAttrs inp, a.path = ⟨false, [⟨"auto_enum", none⟩]⟩ → ∀ n1 toks ms ch,
    (a.form = .list toks ∨ a.form = .path ∧ toks = []) →
    Cx.new (env.hash n1) toks false ms [] = .ok ch → Permit A ch

theorem Permit.next {A : Allow} {cx : Cx} (h : Permit A cx) (as : List Attr) (e : Node) :
    Permit A (cx.nextExprAttrs as e).1 := by
  refine ⟨h.ident, ?_, h.marks, h.edits⟩
  simp only [Cx.nextExprAttrs, List.length_append, List.length_singleton, List.range_succ,
    List.map_append, List.map_cons, List.map_nil]
  rw [← h.variants]

theorem Permit.book {A : Allow} {a b : Cx} (h : Permit A a) (hb : Core a b) : Permit A b :=
  ⟨by rw [hb.ident]; exact h.ident, by rw [hb.variants]; exact h.variants,
    by rw [hb.ident, hb.marker]; exact h.marks,
    by rw [hb.lastMode, hb.mode, hb.ident]; exact h.edits⟩

theorem Permit.setup {A : Allow} {env : Env} {n : Node} {a b : Cx} (h : Permit A a)
    (hb : Setup env n a b) : Permit A b := by
  refine ⟨by rw [hb.ident]; exact h.ident, by rw [hb.variants]; exact h.variants,
    by rw [hb.ident, hb.marker]; exact h.marks, ?_⟩
  rcases h.edits with h1 | ⟨h1, h2⟩
  · left
    rcases hb.lastMode with h3 | h3
    · rw [h3, h1]
    · exact h3
  · rcases hb.mode with h3 | ⟨h3, h4, h5⟩
    · right; rw [h3, hb.ident]; exact ⟨h1, h2⟩
    · right
      rw [hb.ident]
      exact ⟨fun _ => h1 (by simp [h3]), fun _ => h2 (.inl h3)⟩

theorem Permit.wraps {A : Allow} {cx : Cx} (h : Permit A cx) (hv : cx.visitLast = true) :
    A.wraps cx.ident := by
  simp only [Cx.visitLast, Bool.and_eq_true, bne_iff_ne] at hv
  rcases h.edits with h1 | ⟨h1, _⟩
  · exact absurd h1 hv.1
  · exact h1 hv.2

theorem wellFormed_build {A : Allow} {cx : Cx} (h : Permit A cx) (h2 : 2 ≤ cx.variants.length) :
    WellFormed ⟨cx.ident, cx.variants, cx.variants.map fun v => (v, v), cx.args ++ cx.traits⟩ :=
  ⟨h.ident, cx.variants.length, h2, h.variants, congrArg (List.map fun v => (v, v)) h.variants⟩

/-- Removing a helper attribute is an edit. -/
theorem step_findRemove {A : Allow} {n n' : Node} {s : String} {a : Attr}
    (h : n.findRemoveAttr s = some (a, n')) (hs : s ∈ ["auto_enum", "nested", "never"]) :
    Step A n n' := by
  have hp := (ok_findRemove h (ok_self n)).2.2.2
  obtain ⟨hk, _, _, l1, l2, h1, h2⟩ := Node.findRemoveAttr_some h
  cases n with
  | mk k as ks =>
    simp only [Node.kind, Node.kids, Node.rawAttrs] at h1 h2 hk
    subst h1 h2
    exact .dropAttr hp hs hk

theorem isVariant (i : Nat) : IsVariant (variantIdent i) := ⟨i, rfl⟩

theorem T.edit {env : Env} {b : Bool} {cx cx' : Cx} {n n' : Node} {A : Allow} {inp : Node}
    (h : T env b cx n cx' n') (he : cx'.errs = []) (hs : Permit A cx) (ho : Ok inp n)
    (hi : PermitInner env inp A) (hty : env.typeAnalysis = true → A.types) :
    (b = false → Permit A cx') ∧ Edit A n n' := by
  induction h with
  | refl => exact ⟨fun _ => hs, .refl _⟩
  | trans h1 h2 ih1 ih2 =>
    have e1 := errs_nil_of_prefix h2.errs_mono he
    obtain ⟨a1, a3⟩ := ih1 e1 hs ho
    obtain ⟨b1, b3⟩ := ih2 he (a1 rfl) (h1.ok ho)
    exact ⟨b1, a3.trans b3⟩
  | book hb => exact ⟨fun _ => hs.book hb.toCore, .refl _⟩
  | kid hk hitem h1 ih =>
    obtain ⟨a1, a2⟩ := ih he hs ((ok_mk.mp ho).2 _ (by simp))
    exact ⟨a1, a2.kid hk⟩
  | wrapVal hv hk =>
    exact ⟨fun _ => hs.next _ _, .one (.wrapVal (hs.wraps hv) (isVariant _) hk)⟩
  | wrapArm hv hg =>
    exact ⟨fun _ => hs.next _ _, .one (.wrapArm (hs.wraps hv) (isVariant _) hg)⟩
  | wrapBlock hv hk =>
    exact ⟨fun _ => hs.next _ _, .one (.wrapBlock (hs.wraps hv) (isVariant _) hk)⟩
  | fill hv hk => exact ⟨fun _ => hs.next _ _, .one (.unit (hs.wraps hv) (isVariant _) hk)⟩
  | marker hm =>
    rename_i cx p t as e
    obtain ⟨lead, segs⟩ := p
    simp only [Cx.isMarkerExact, Path.isIdent] at hm
    split at hm
    · simp only [beq_iff_eq] at hm
      subst hm
      exact ⟨fun _ => hs.next _ _, .one (.mark hs.marks (isVariant _))⟩
    · cases hm
  | tryOp hm hl =>
    refine ⟨fun _ => hs.next _ _, .one (.tryOp ?_ (isVariant _))⟩
    rcases hs.edits with h1 | ⟨_, h2⟩
    · exact absurd h1 hl
    · exact h2 (.inr hm)
  | dropAttr hmem hf =>
    exact ⟨fun _ => hs, .one (step_findRemove hf hmem)⟩
  | unmark _ hne => exact absurd he hne
  | badMark => simp [Cx.error] at he
  | dropRec => simp [Cx.error] at he
  | child _ hf hform hnew h1 h2 heq ih1 ih2 =>
    have hb := join_core heq
    obtain ⟨e2, ech⟩ := join_nil heq he
    obtain ⟨o1, o2, _, o4⟩ := ok_findRemove hf ho
    obtain ⟨a1, a3⟩ := ih1 e2 hs o1
    obtain ⟨_, b3⟩ := ih2 ech (hi _ o2 o4 _ _ _ _ hform hnew) (h1.ok o1)
    exact ⟨fun _ => (a1 rfl).book hb,
      .trans (.one (step_findRemove hf (by simp [NAME]))) (a3.trans b3)⟩
  | exPlain _ _ ih => exact ⟨by simp, (ih he hs ho).2⟩
  | exErr _ hne _ => exact absurd he hne
  | exTwo => simp [Cx.error] at he
  | exExpr _ h2 ih =>
    obtain ⟨a1, a3⟩ := ih he hs ho
    exact ⟨by simp, .step a3 (.enumExpr _ _ (wellFormed_build (a1 rfl) h2))⟩
  | exKid hk h1 ih =>
    obtain ⟨_, a3⟩ := ih he hs ((ok_mk.mp ho).2 _ (by simp))
    refine ⟨by simp, a3.kid (pre := []) ?_⟩
    rcases hk with ⟨_, rfl⟩ | ⟨_, rfl⟩ <;> rfl
  | exPat hp h1 ih =>
    rename_i p' p cx as ks cx' m'
    rw [ok_mk] at ho
    have ho' : Ok inp (.mk (.sLocal p') as ks) := by
      refine ok_mk.mpr ⟨⟨ho.1.1, ?_⟩, ho.2⟩
      rcases hp with rfl | ⟨_, s, ty, rfl, rfl⟩
      · exact ho.1.2
      · simp [annotationOf]
    obtain ⟨_, a3⟩ := ih he hs ho'
    refine ⟨by simp, ?_⟩
    rcases hp with rfl | ⟨hta, s, ty, rfl, rfl⟩
    · exact a3
    · exact .trans (.one (.dropType (hty hta))) a3
  | exFn h1 h2 ih =>
    obtain ⟨a1, a3⟩ := ih he hs ho
    exact ⟨by simp, .step a3 (.enumFn _ (wellFormed_build (a1 rfl) h2))⟩
  | exSetup hset h1 ih => exact ⟨by simp, (ih he (hs.setup hset) ho).2⟩

end AutoEnums
