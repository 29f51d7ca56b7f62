import Verif.TraceVisit
import Verif.Spec.Shape

/-! # Expansion keeps trees syntactically valid -/

namespace AutoEnums

open Spec

theorem elseOk_mk (k : Kind) (as : List Attr) (ks : List Node) :
    elseOk (.mk k as ks) = ((k != .eIf || (ks.drop 2).all mayFollowElse) && elseOkL ks) := by
  rw [elseOk]

@[simp] theorem elseOkL_nil : elseOkL [] = true := by rw [elseOkL]

@[simp] theorem elseOkL_cons (n : Node) (ns : List Node) :
    elseOkL (n :: ns) = (elseOk n && elseOkL ns) := by rw [elseOkL]

@[simp] theorem elseOkL_append (a b : List Node) :
    elseOkL (a ++ b) = (elseOkL a && elseOkL b) := by
  induction a with
  | nil => simp
  | cons n ns ih => simp [ih, Bool.and_assoc]

theorem elseOkL_mem {l : List Node} (h : elseOkL l = true) : ∀ c ∈ l, elseOk c = true := by
  induction l with
  | nil => simp
  | cons n ns ih =>
    simp only [elseOkL_cons, Bool.and_eq_true] at h
    intro c hc
    cases hc with
    | head => exact h.1
    | tail _ hc => exact ih h.2 c hc

theorem elseOk_plain {k : Kind} (hk : k ≠ .eIf) (as : List Attr) (ks : List Node) :
    elseOk (.mk k as ks) = elseOkL ks := by
  rw [elseOk_mk]
  simp [hk]

theorem mayFollowElse_iff {n : Node} : mayFollowElse n = true ↔ n.kind.isElse = true := by
  cases n with
  | mk k as ks => cases k <;> simp [mayFollowElse, Node.kind, Kind.isElse]

theorem elseOk_kids {k : Kind} {as : List Attr} {ks : List Node}
    (h : elseOk (.mk k as ks) = true) : elseOkL ks = true := by
  rw [elseOk_mk, Bool.and_eq_true] at h
  exact h.2

theorem elseOk_attrs (k : Kind) (as as' : List Attr) (ks : List Node) :
    elseOk (.mk k as ks) = elseOk (.mk k as' ks) := by
  rw [elseOk_mk, elseOk_mk]

theorem elseOk_kid {k : Kind} {as : List Attr} {pre post : List Node} {n n' : Node}
    (hf : Fits k n n') (h : elseOk n = true → elseOk n' = true)
    (h0 : elseOk (.mk k as (pre ++ n :: post)) = true) :
    elseOk (.mk k as (pre ++ n' :: post)) = true := by
  rw [elseOk_mk] at h0 ⊢
  simp only [elseOkL_append, elseOkL_cons, Bool.and_eq_true] at h0 ⊢
  refine ⟨?_, h0.2.1, h h0.2.2.1, h0.2.2.2⟩
  by_cases hk : k = .eIf
  · have hh := h0.1
    simp only [hk, bne_self_eq_false, Bool.false_or] at hh ⊢
    have h1 : mayFollowElse n = true → mayFollowElse n' = true := by
      rw [mayFollowElse_iff, mayFollowElse_iff]
      exact hf.2 hk
    match pre with
    | [] => simpa using hh
    | [a] => simpa using hh
    | a :: b :: pre =>
      simp only [List.cons_append, List.drop_succ_cons, List.drop_zero, List.all_append,
        List.all_cons, Bool.and_eq_true] at hh ⊢
      exact ⟨hh.1, h1 hh.2.1, hh.2.2⟩
  · simp [hk]

theorem elseOk_next (cx : Cx) (as : List Attr) (e : Node) :
    elseOk (cx.nextExprAttrs as e).2 = elseOk e := by
  simp [Cx.nextExprAttrs, exprCall, elseOk_plain (show Kind.eCall ≠ .eIf by simp), pathE,
    elseOk_plain (show Kind.ePath _ _ ≠ .eIf by simp)]

theorem elseOk_findRemove {n n' : Node} {s : String} {a : Attr}
    (h : n.findRemoveAttr s = some (a, n')) : elseOk n' = elseOk n := by
  obtain ⟨_, _, _, l1, l2, h1, h2⟩ := Node.findRemoveAttr_some h
  cases n with
  | mk k as ks =>
    simp only [Node.kind, Node.kids, Node.rawAttrs] at h1 h2
    subst h1 h2
    exact elseOk_attrs _ _ _ _

theorem T.elseOk {env : Env} {b : Bool} {cx cx' : Cx} {n n' : Node} (h : T env b cx n cx' n')
    (h0 : elseOk n = true) : elseOk n' = true := by
  induction h with
  | refl => exact h0
  | trans _ _ h1 h2 => exact h2 (h1 h0)
  | book => exact h0
  | kid _ hf _ ih => exact elseOk_kid hf ih h0
  | wrapVal hv hk =>
    rename_i k cx as e rest
    have hb : k ≠ .eIf := by rcases hk with rfl | ⟨l, rfl⟩ <;> simp
    rw [elseOk_plain hb, elseOkL_cons] at h0 ⊢
    rw [Cx.nextExpr, elseOk_next]; exact h0
  | wrapArm hv hg =>
    rw [elseOk_plain (by simp), elseOkL_append, elseOkL_cons] at h0 ⊢
    rw [Cx.nextExpr, elseOk_next]; exact h0
  | wrapBlock hv hk =>
    rename_i k cx as ss
    have hb : k ≠ .eIf := by rcases hk with rfl | ⟨l, rfl⟩ <;> simp
    rw [elseOk_plain hb] at h0 ⊢
    rw [elseOkL_cons, tailS, elseOk_plain (by simp), elseOkL_cons, Cx.nextExpr, elseOk_next,
      exprBlock, elseOk_plain (by simp), h0]
    rfl
  | fill hv hk =>
    rename_i k cx as
    have hb : k ≠ .eIf := by rcases hk with rfl | ⟨l, rfl⟩ <;> simp
    rw [elseOk_plain hb, elseOkL_cons, Cx.nextExpr, elseOk_next]
    simp [unitE, elseOk_plain (show Kind.eTuple ≠ .eIf by simp)]
  | marker _ =>
    rw [elseOk_next]
    rw [elseOk_plain (by simp)] at h0
    simpa using h0
  | tryOp _ _ =>
    rw [elseOk_plain (by simp)] at h0 ⊢
    simp only [elseOkL_cons, tryArms, exprBlock, semiS, elseOk_plain (show Kind.arm _ ≠ .eIf by simp),
      elseOk_plain (show Kind.eBlock _ ≠ .eIf by simp),
      elseOk_plain (show Kind.sExpr _ ≠ .eIf by simp),
      elseOk_plain (show Kind.eReturn ≠ .eIf by simp),
      elseOk_plain (show Kind.eCall ≠ .eIf by simp), pathE,
      elseOk_plain (show Kind.ePath _ _ ≠ .eIf by simp), Cx.nextExpr, elseOk_next] at h0 ⊢
    simpa using h0
  | dropAttr _ hf => rw [elseOk_findRemove hf]; exact h0
  | unmark _ _ =>
    rw [elseOk_plain (by simp)] at h0
    simpa using h0
  | badMark _ => rfl
  | dropRec hf => rw [elseOk_findRemove hf]; exact h0
  | child _ hf _ _ _ _ _ ih1 ih2 => exact ih2 (ih1 (by rw [elseOk_findRemove hf]; exact h0))
  | exPlain _ _ ih => exact ih h0
  | exErr _ _ ih => exact ih h0
  | exTwo _ _ _ ih => exact ih h0
  | exExpr _ _ ih =>
    rw [buildExpr, exprBlock, elseOk_plain (by simp), elseOkL_cons, Cx.buildEnum,
      elseOk_plain (by simp), elseOkL_cons, tailS, elseOk_plain (by simp), elseOkL_cons, ih h0]
    rfl
  | exKid hk ht ih =>
    rename_i k _ _ _ _ _ _
    have hb : k ≠ .eIf := by rcases hk with ⟨l, rfl⟩ | ⟨l, rfl⟩ <;> simp
    rw [elseOk_plain hb, elseOkL_cons, Bool.and_eq_true] at h0 ⊢
    exact ⟨ih h0.1, h0.2⟩
  | exPat _ _ ih =>
    refine ih ?_
    rw [elseOk_plain (by simp)] at h0 ⊢
    exact h0
  | exFn _ _ ih =>
    have := ih h0
    rw [elseOk_plain (by simp), elseOkL_cons, elseOk_plain (by simp)] at this ⊢
    rw [elseOkL_cons, Cx.buildEnum, elseOk_plain (by simp), elseOkL_nil, Bool.true_and]
    exact this
  | exSetup _ _ ih => exact ih h0

end AutoEnums
