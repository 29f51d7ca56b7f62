import Verif.Lemmas.Pads
import Verif.Lemmas.Whole
import Verif.Lemmas.FlowApi

/-! # Lemmas: the bodies of functions and of closures (for C75) -/

namespace AutoEnums

open Spec

namespace Closure

theorem childLast_idle {c : Cx} {ss : List Node} (h : (!c.visitLast || isUnreachableLast c ss) = true) :
    childLast c ss = (c, ss) := by
  rcases List.eq_nil_or_concat ss with rfl | ⟨i, a, rfl⟩
  · rfl
  · rw [List.concat_eq_append] at h ⊢
    rw [Pad.unreachableLast_append] at h
    rw [Pad.childLast_append]
    have : childLast c [a] = (c, [a]) := by
      obtain ⟨k, as, ks⟩ := a
      cases k <;> try (simp only [childLast]; done)
      case sExpr semi =>
        cases semi
        · match ks with
          | [] => rfl
          | [e] =>
            simp only [isUnreachableLast] at h
            obtain ⟨k, as', ks⟩ := e
            have : childExpr c (.mk k as' ks) = (c, .mk k as' ks) := by
              rw [childExpr.eq_def]
              dsimp only
              rw [if_pos h]
            simp only [childLast, this]
          | _ :: _ :: _ => simp only [childLast]
        · simp only [childLast]
    rw [this]

theorem child_block (c : Cx) (ss : List Node) :
    childExpr c (exprBlock ss) = ((childLast c ss).1, exprBlock (childLast c ss).2) := by
  have hu : isUnreachable c (exprBlock ss) = isUnreachableLast c ss := by
    rw [exprBlock, isUnreachable.eq_def]
    rfl
  by_cases h : (!c.visitLast || isUnreachableLast c ss) = true
  · rw [childLast_idle h]
    unfold exprBlock at *
    rw [childExpr.eq_def]
    dsimp only
    rw [hu, if_pos h]
  · unfold exprBlock at *
    rw [childExpr.eq_def]
    dsimp only
    rw [hu, if_neg h]

theorem childLast_stmts {c : Cx} {ss : List Node} (h : ∀ s ∈ ss, s.kind.isStmt = true) :
    ∀ s ∈ (childLast c ss).2, s.kind.isStmt = true := by
  rcases List.eq_nil_or_concat ss with rfl | ⟨i, a, rfl⟩
  · intro s hs; cases hs
  · rw [List.concat_eq_append] at h ⊢
    rw [Pad.childLast_append]
    intro s hs
    rw [List.mem_append] at hs
    rcases hs with hs | hs
    · exact h s (by simp [hs])
    · have ha := h a (by simp)
      obtain ⟨k, as, ks⟩ := a
      have : ∃ ks', (childLast c [.mk k as ks]).2 = [.mk k as ks'] := by
        cases k <;> try (refine ⟨ks, ?_⟩; simp only [childLast]; done)
        case sExpr semi =>
          cases semi
          · match ks with
            | [] => exact ⟨_, rfl⟩
            | [e] => exact ⟨_, by simp only [childLast]; rfl⟩
            | _ :: _ :: _ => exact ⟨_, by simp only [childLast]; rfl⟩
          · exact ⟨_, by simp only [childLast]; rfl⟩
      obtain ⟨ks', hk⟩ := this
      rw [hk] at hs
      simp only [List.mem_cons, List.not_mem_nil, or_false] at hs
      subst hs
      exact ha

/-- After an error, statements are left alone. -/
theorem stmts_error (env : Env) (f : Nat) {c : Cx} (hc : c.hasError = true) : ∀ {ss : List Node},
    (∀ s ∈ ss, s.kind.isStmt = true) → mapA (visit env (f + 1) .visitor {}) c ss = (c, ss) := by
  intro ss
  induction ss with
  | nil => intro _; rfl
  | cons s ss ih =>
    intro h
    have hs : visit env (f + 1) .visitor {} c s = (c, s) := by
      have h1 := h s (by simp)
      have h2 : s.kind.isExpr = false := by
        obtain ⟨k, as, ks⟩ := s
        cases k <;> first | rfl | cases h1
      simp only [visit, visitorStep, h1, h2, if_true, Bool.false_eq_true, if_false, visitStmt, hc]
    rw [mapA, hs]
    dsimp only
    rw [ih fun s hs => h s (by simp [hs])]

theorem visit_block (env : Env) (f : Nat) (c : Cx) (as : List Attr) (ss : List Node) :
    visit env (f + 2) .visitor {} c (.mk .block as ss) =
      ((mapA (visit env (f + 1) .visitor {}) c ss).1, .mk .block as (mapA (visit env (f + 1) .visitor {}) c ss).2) := rfl

theorem visit_exprBlock (env : Env) (f : Nat) (c : Cx) {ss : List Node} (h : ∀ s ∈ ss, s.kind.isStmt = true) :
    visit env (f + 2) .visitor {} c (exprBlock ss) =
      ((mapA (visit env (f + 1) .visitor {}) c ss).1, exprBlock (mapA (visit env (f + 1) .visitor {}) c ss).2) := by
  show visitorStep env (visit env (f + 1)) {} c (.mk (.eBlock none) [] ss) = _
  have h1 : (Node.mk (.eBlock none) [] ss).kind.isExpr = true := rfl
  rw [visitorStep, if_pos h1]
  by_cases hc : c.hasError = true
  · rw [if_pos hc, stmts_error env f hc h]
    rfl
  · rw [if_neg hc]
    have ha : c.assert (!c.hasError) .visitAfterError = c := by simp [Cx.assert, hc]
    unfold visitExpr
    rw [ha]
    have hm : visitMode {} c (.mk (.eBlock none) [] ss) = (c, .mk (.eBlock none) [] ss) := by
      unfold visitMode
      cases c.mode with
      | ret _ => simp [visitReturn]
      | try_ => simp [visitTry]
      | default => rfl
    have hr : ∀ s ks, (Node.mk (.eBlock none) [] ks).findRemoveAttr s = none := fun s ks => rfl
    have hn : (Node.mk (.eBlock none) [] ss).anyAttr NAME = false := rfl
    simp only [hn, Bool.false_eq_true, if_false, Scope.check, Node.kind, hm, hr, vsVisitExpr, Bool.not_false,
      Bool.true_or, if_true]
    rfl

end Closure

end AutoEnums
