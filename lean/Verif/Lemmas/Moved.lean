import Verif.Lemmas.Traits
import Verif.Lemmas.Whole
import Verif.Lemmas.FlowApi
import Verif.Spec.Moved

/-! # Lemmas: inferred traits are as good as named ones -/

namespace AutoEnums

open Spec

namespace Moved

open Traits (re childExpr_re childLast_re visit_re walk_re visitFn_re re_self no_exit no_dummy build_re)

/-- The expansion is not given up. -/
def Stays (c : Cx) : Prop := c.args ≠ [] ∨ ∀ k, c.mode = .ret k → 2 ≤ k

theorem Stays.exit {env : Env} {c : Cx} (h : Stays c) : c.analysisExit env = false := by
  rcases h with h | h
  · exact no_exit env h
  · unfold Cx.analysisExit
    cases hm : c.mode with
    | ret k =>
      have := h k hm
      simp; omega
    | _ => simp

theorem Stays.of_same {c d : Cx} (h : Stays c) (ha : d.args = c.args) (hm : d.mode = c.mode) : Stays d := by
  unfold Stays at *
  rwa [ha, hm]

variable {env : Env} {f : Nat} {a t : List Path}

theorem visit_kept (vk : VK) (sc : Scope) (c : Cx) (n : Node) :
    (visit env f vk sc c n).1.args = c.args ∧ (visit env f vk sc c n).1.traits = c.traits := by
  have := visit_re env f c.args c.traits vk sc c n
  rw [re_self] at this
  exact ⟨congrArg (·.1.args) this, congrArg (·.1.traits) this⟩

theorem walk_kept (vk : VK) (sc : Scope) (c : Cx) (n : Node) :
    (walk (visit env f vk sc) c n).1.args = c.args ∧ (walk (visit env f vk sc) c n).1.traits = c.traits := by
  have := walk_re env f c.args c.traits vk sc c n
  rw [re_self] at this
  exact ⟨congrArg (·.1.args) this, congrArg (·.1.traits) this⟩

theorem childExpr_kept (c : Cx) (n : Node) :
    (childExpr c n).1.args = c.args ∧ (childExpr c n).1.traits = c.traits := by
  have := childExpr_re c.args c.traits c n
  rw [re_self] at this
  exact ⟨congrArg (·.1.args) this, congrArg (·.1.traits) this⟩

theorem childLast_kept (c : Cx) (l : List Node) :
    (childLast c l).1.args = c.args ∧ (childLast c l).1.traits = c.traits := by
  have := childLast_re c.args c.traits c l
  rw [re_self] at this
  exact ⟨congrArg (·.1.args) this, congrArg (·.1.traits) this⟩

theorem expandTarget_re (ha : a ≠ []) {c : Cx} (hc : Stays c) (n : Node) :
    expandTarget env (visit env f) (re a t c) n =
      (re a t (expandTarget env (visit env f) c n).1, (expandTarget env (visit env f) c n).2) ∧
    (expandTarget env (visit env f) c n).1.args = c.args ∧
    (expandTarget env (visit env f) c n).1.traits = c.traits := by
  unfold expandTarget
  rw [childExpr_re]
  dsimp only
  have h1 : (re a t (childExpr c n).1).analysisExit env = false := no_exit env ha
  have h2 : (childExpr c n).1.analysisExit env = false :=
    (hc.of_same (childExpr_kept c n).1 (childExpr_same n c).mode).exit
  rw [h1, h2]
  simp only [Bool.false_eq_true, if_false]
  obtain ⟨k1, k2⟩ := visit_kept (env := env) (f := f) .visitor {} (childExpr c n).1 (childExpr c n).2
  obtain ⟨k3, k4⟩ := childExpr_kept c n
  exact ⟨visit_re env f a t _ _ _ _, k1.trans k3, k2.trans k4⟩

/-- What is needed of an expression: a closure has two `return`s or two `?`. -/
def Fit (c : Cx) (n : Node) : Prop :=
  c.args ≠ [] ∨ ∀ i as b, n = .mk (.eClosure i) as [b] → 2 ≤ (visitFn c b).return_ ∨ 2 ≤ (visitFn c b).try_

theorem expandExpr_re (ha : a ≠ []) {c : Cx} (hm : c.mode = .default) (n : Node) (hf : Fit c n) :
    expandExpr env (visit env f) (re a t c) n =
      (re a t (expandExpr env (visit env f) c n).1, (expandExpr env (visit env f) c n).2) ∧
    (expandExpr env (visit env f) c n).1.args = c.args ∧
    (expandExpr env (visit env f) c n).1.traits = c.traits := by
  have hs : Stays c := .inr fun k h => by rw [hm] at h; cases h
  unfold expandExpr
  split
  · rename_i i as body
    rw [visitFn_re]
    have hv : (re a t c).visitLast = c.visitLast := rfl
    rw [hv]
    split
    · have hst : Stays { c with mode :=
          if (visitFn c body).try_ ≥ 2 then .try_ else .ret (visitFn c body).return_ } := by
        rcases hf with h | h
        · exact .inl h
        · refine .inr fun k hk => ?_
          dsimp only at hk
          split at hk
          · cases hk
          · injection hk with hk
            rcases h i as body rfl with h | h <;> omega
      have := expandTarget_re (env := env) (f := f) (a := a) (t := t) ha hst body
      simp only [re] at this ⊢
      simp only [this, and_self]
    · exact expandTarget_re ha hs _
  · exact expandTarget_re ha hs _

theorem buildEnum_re {c : Cx} (h : a ++ t = c.args ++ c.traits) : (re a t c).buildEnum = c.buildEnum := by
  unfold Cx.buildEnum re
  dsimp only
  rw [h]

theorem build_re' {c : Cx} (h : a ++ t = c.args ++ c.traits) :
    (re a t c).build = (re a t c.build.1, c.build.2) := by
  rw [build_re, buildEnum_re h]
  have hb := fun item => Traits.build_item (c := c) (item := item)
  generalize c.build = b at hb ⊢
  obtain ⟨b, o⟩ := b
  cases o with
  | none => rfl
  | some item => rw [hb item rfl]; rfl

theorem expandBuild_re (ha : a ≠ []) {c : Cx} (hm : c.mode = .default) (n : Node) (hf : Fit c n)
    (h : a ++ t = c.args ++ c.traits) :
    expandBuild env (visit env f) (re a t c) n =
      (re a t (expandBuild env (visit env f) c n).1, (expandBuild env (visit env f) c n).2) := by
  obtain ⟨h1, h2, h3⟩ := expandExpr_re (env := env) (f := f) (t := t) ha hm n hf
  unfold expandBuild
  rw [h1]
  dsimp only
  rw [build_re' (by rw [h2, h3]; exact h)]
  generalize Cx.build _ = b
  obtain ⟨b, o⟩ := b
  cases o <;> rfl

theorem finish_re (a t : List Path) (r : Cx × Node) : finish (re a t r.1, r.2) = finish r := rfl

theorem inferred_named (args : List Path) (ty : Ty) : inferred (args ++ inferred args ty) ty = [] := by
  unfold inferred
  rw [List.filter_eq_nil_iff]
  intro p hp
  simp only [List.mem_append, List.mem_filter, decide_eq_true_eq, not_or, not_and]
  intro h1 h2
  exact h1.2 hp h1.1 h2

theorem fnAnalysis_re {c : Cx} (ht : c.traits = []) (ret : Option Ty) (b : Node) (new : List Path)
    (hn : new = (fnAnalysis env c ret b).traits) :
    fnAnalysis env (re (c.args ++ new) [] c) ret b = re (c.args ++ new) [] (fnAnalysis env c ret b) := by
  unfold fnAnalysis at hn ⊢
  cases ret with
  | none => rfl
  | some ty =>
    have hr : retMode (re (c.args ++ new) [] c) ty b = retMode c ty b := by
      unfold retMode
      rw [visitFn_re]
      rfl
    dsimp only at hn ⊢
    rw [hr]
    split
    · rename_i h
      rw [if_pos h] at hn
      simp only [Cx.collectImplTrait, collectTy_eq, ht, List.nil_append] at hn ⊢
      simp only [re, List.nil_append]
      rw [hn, inferred_named]
    · rfl

theorem fn_re {c : Cx} (ht : c.traits = []) (name : String) (ret : Option Ty)
    (as asb : List Attr) (ss : List Node) (new : List Path)
    (hn : new = (fnAnalysis env c ret (.mk .block asb ss)).traits) (hne : new ≠ [])
    (hs : Stays (fnAnalysis env c ret (.mk .block asb ss))) :
    expandParentFn env (visit env f) (re (c.args ++ new) [] c) name ret as asb ss =
      (re (c.args ++ new) [] (expandParentFn env (visit env f) c name ret as asb ss).1,
        (expandParentFn env (visit env f) c name ret as asb ss).2) := by
  have ha : c.args ++ new ≠ [] := by simp [hne]
  unfold expandParentFn
  dsimp only
  rw [fnAnalysis_re ht ret _ new hn]
  obtain ⟨h1, -, -⟩ := Traits.fnAnalysis_args (env := env) c ret (.mk .block asb ss)
  generalize fnAnalysis env c ret (.mk .block asb ss) = d at hn hs h1 ⊢
  rw [show d.isDummy = false by simp [Cx.isDummy, ← hn, hne],
    no_dummy (c := re (c.args ++ new) [] d) ha]
  simp only [Bool.false_eq_true, if_false]
  generalize hA : c.args ++ new = A at ha ⊢
  have hr : (if ss.isEmpty then ((re A [] d).error .emptyFn, ss) else childLast (re A [] d) ss) =
      (re A [] (if ss.isEmpty then (d.error .emptyFn, ss) else childLast d ss).1,
        (if ss.isEmpty then (d.error .emptyFn, ss) else childLast d ss).2) := by
    split
    · rfl
    · exact childLast_re ..
  have hi : (if ss.isEmpty then (d.error .emptyFn, ss) else childLast d ss).1.args = d.args ∧
      (if ss.isEmpty then (d.error .emptyFn, ss) else childLast d ss).1.traits = d.traits ∧
      (if ss.isEmpty then (d.error .emptyFn, ss) else childLast d ss).1.mode = d.mode := by
    split
    · exact ⟨rfl, rfl, rfl⟩
    · exact ⟨(childLast_kept d ss).1, (childLast_kept d ss).2, (childLast_same ss d).mode⟩
  rw [hr]
  generalize (if ss.isEmpty then (d.error .emptyFn, ss) else childLast d ss) = r at hi ⊢
  obtain ⟨r, ss'⟩ := r
  dsimp only at hi ⊢
  rw [(hs.of_same hi.1 hi.2.2).exit, no_exit env (c := re A [] r) ha]
  simp only [Bool.false_eq_true, if_false]
  rw [walk_re]
  obtain ⟨k1, k2⟩ := walk_kept (env := env) (f := f) .visitor {} r (.mk (.iFn name ret) as [.mk .block asb ss'])
  generalize walk (visit env f .visitor {}) r (.mk (.iFn name ret) as [.mk .block asb ss']) = w at k1 k2 ⊢
  obtain ⟨w, n⟩ := w
  dsimp only at k1 k2 ⊢
  rw [build_re' (by rw [k1, k2, hi.1, hi.2.1, h1, ← hn, ← hA, List.append_nil])]
  generalize w.build = b
  obtain ⟨b, o⟩ := b
  dsimp only
  cases o with
  | none => rfl
  | some item =>
    split
    · rename_i h
      simp only [Prod.mk.injEq, Option.some.injEq] at h
      obtain ⟨⟨rfl, rfl⟩, rfl⟩ := h
      rfl
    · rename_i heq hno
      obtain ⟨rfl, rfl⟩ := Prod.mk.inj heq
      split
      · exact absurd rfl (hno _ _ _ _ _ rfl)
      · rename_i heq' _
        obtain ⟨rfl, rfl⟩ := Prod.mk.inj heq'
        rfl

end Moved

end AutoEnums
