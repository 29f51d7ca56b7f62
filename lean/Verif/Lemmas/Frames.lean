import Verif.Lemmas.FillFuel
import Verif.Spec.Frames

/-! # Lemmas: what the attribute looks through (for C72) -/

namespace AutoEnums

open Spec

namespace Frames

/-! ## `is_unreachable` and `child_expr` -/

theorem unreachableLast_cons (c : Cx) (s : Node) {l : List Node} (hl : l ≠ []) :
    isUnreachableLast c (s :: l) = isUnreachableLast c l := by
  cases l with
  | nil => exact absurd rfl hl
  | cons t l =>
    simp only [isUnreachableLast]

theorem unreachableLast_snoc (c : Cx) (e : Node) : ∀ ss : List Node,
    isUnreachableLast c (ss ++ [.mk (.sExpr false) [] [e]]) = isUnreachable c e := by
  intro ss
  induction ss with
  | nil => rfl
  | cons s ss ih => rw [List.cons_append, unreachableLast_cons c s (by simp), ih]

theorem childLast_cons (c : Cx) (s : Node) {l : List Node} (hl : l ≠ []) :
    childLast c (s :: l) = ((childLast c l).1, s :: (childLast c l).2) := by
  cases l with
  | nil => exact absurd rfl hl
  | cons t l =>
    simp only [childLast]

theorem childLast_snoc (c : Cx) (e : Node) : ∀ ss : List Node,
    childLast c (ss ++ [.mk (.sExpr false) [] [e]]) =
      ((childExpr c e).1, ss ++ [.mk (.sExpr false) [] [(childExpr c e).2]]) := by
  intro ss
  induction ss with
  | nil => rfl
  | cons s ss ih => rw [List.cons_append, childLast_cons c s (by simp), ih]; rfl

theorem unreachable_around (c : Cx) (F : Frame) {as : List Attr} (has : noHelp as = true) (e : Node) :
    isUnreachable c (F.around as e) = isUnreachable c e := by
  have h1 := Fill.noHelp_any has (s := NAME) (by simp)
  have h2 := Fill.empty_any (Fill.noHelp_any has (s := NEVER) (by simp))
  cases F with
  | paren => simp only [Frame.around]; rw [isUnreachable.eq_def]; simp [h1, h2]
  | block l ss =>
    simp only [Frame.around]; rw [isUnreachable.eq_def]; simp [h1, h2, unreachableLast_snoc]
  | unsafeBlock ss =>
    simp only [Frame.around]; rw [isUnreachable.eq_def]; simp [h1, h2, unreachableLast_snoc]
  | methodCall m args => simp only [Frame.around]; rw [isUnreachable.eq_def]; simp [h1, h2]

theorem childExpr_idle' {c : Cx} {e : Node} (h : (!c.visitLast || isUnreachable c e) = true) :
    childExpr c e = (c, e) := by
  obtain ⟨k, as, ks⟩ := e
  rw [childExpr.eq_def]
  dsimp only
  rw [if_pos h]

theorem child_around (c : Cx) (F : Frame) {as : List Attr} (has : noHelp as = true) (e : Node) :
    childExpr c (F.around as e) = ((childExpr c e).1, F.around as (childExpr c e).2) := by
  have hu := unreachable_around c F has e
  by_cases h : (!c.visitLast || isUnreachable c e) = true
  · rw [childExpr_idle' h, childExpr_idle' (by rw [hu]; exact h)]
  · have h' : ¬ (!c.visitLast || isUnreachable c (F.around as e)) = true := by rw [hu]; exact h
    cases F with
    | paren => simp only [Frame.around] at h' ⊢; rw [childExpr.eq_def]; dsimp only; rw [if_neg h']
    | block l ss =>
      simp only [Frame.around] at h' ⊢; rw [childExpr.eq_def]; dsimp only
      rw [if_neg h', childLast_snoc]
    | unsafeBlock ss =>
      simp only [Frame.around] at h' ⊢; rw [childExpr.eq_def]; dsimp only
      rw [if_neg h', childLast_snoc]
    | methodCall m args => simp only [Frame.around] at h' ⊢; rw [childExpr.eq_def]; dsimp only; rw [if_neg h']

theorem child_isExpr (c : Cx) (e : Node) : (childExpr c e).2.kind = e.kind := by
  obtain ⟨k, as, ks⟩ := e
  rw [childExpr.eq_def]
  dsimp only
  split
  · rfl
  · split <;> try rfl
    rename_i ks _
    unfold visitIf
    split <;> try rfl
    dsimp only
    split <;> rfl

/-! ## The visitors -/

theorem mapA_still {g : Cx → Node → Cx × Node} : ∀ (l : List Node) (c : Cx),
    (∀ c, ∀ n ∈ l, g c n = (c, n)) → mapA g c l = (c, l) := by
  intro l
  induction l with
  | nil => intro c _; rfl
  | cons a l ih =>
    intro c hl
    rw [mapA, hl c a (by simp)]
    dsimp only
    rw [ih c fun c n hn => hl c n (by simp [hn])]

theorem mapA_snoc {g : Cx → Node → Cx × Node} {s : Node} : ∀ (l : List Node) (c : Cx),
    (∀ c, ∀ n ∈ l, g c n = (c, n)) → mapA g c (l ++ [s]) = ((g c s).1, l ++ [(g c s).2]) := by
  intro l
  induction l with
  | nil => intro c _; rfl
  | cons a l ih =>
    intro c hl
    rw [List.cons_append, mapA, hl c a (by simp)]
    dsimp only
    rw [ih c fun c n hn => hl c n (by simp [hn])]
    rfl

/-- Code without something to do beside an expression is left alone, and the expression statement at the end of
a block is visited as the expression. -/
theorem walk_around {g : Cx → Node → Cx × Node} (c : Cx) (F : Frame) (as : List Attr) (e : Node)
    (hr : ∀ c, ∀ n ∈ F.rest, g c n = (c, n))
    (ht : g c (.mk (.sExpr false) [] [e]) = ((g c e).1, .mk (.sExpr false) [] [(g c e).2])) :
    walk g c (F.around as e) = ((g c e).1, F.around as (g c e).2) := by
  cases F with
  | paren => rfl
  | block l ss =>
    simp only [Frame.around, walk, Kind.isOpaque, Bool.false_eq_true, if_false]
    rw [mapA_snoc ss c hr, ht]
  | unsafeBlock ss =>
    simp only [Frame.around, walk, Kind.isOpaque, Bool.false_eq_true, if_false]
    rw [mapA_snoc ss c hr, ht]
  | methodCall m args =>
    simp only [Frame.around, walk, Kind.isOpaque, Bool.false_eq_true, if_false, mapA]
    rw [mapA_still args _ hr]

theorem visit_tail (env : Env) (f : Nat) (vk : VK) (sc : Scope) (c : Cx) (e : Node) (he : e.kind.isExpr = true) :
    visit env (f + 1) vk sc c (.mk (.sExpr false) [] [e]) =
      ((visit env (f + 1) vk sc c e).1, .mk (.sExpr false) [] [(visit env (f + 1) vk sc c e).2]) := by
  have ha : (Node.mk (.sExpr false) [] [e]).anyAttr NAME = e.anyAttr NAME := by
    simp only [Node.anyAttr, Node.attrs]
  cases vk with
  | visitor =>
    simp only [visit, visitorStep]
    rw [if_pos he, if_neg (by simp [Node.kind, Kind.isExpr]), if_pos (by rfl)]
    unfold visitStmt
    split <;> rfl
  | dummy =>
    simp only [visit, dummyStep, ha]
    rw [if_pos he, if_neg (by simp [Node.kind, Kind.isExpr]), if_pos (by rfl)]
    split
    · rfl
    · rfl

theorem around_facts (F : Frame) (as : List Attr) (e : Node) :
    (F.around as e).kind.isExpr = true ∧ (F.around as e).attrs = as ∧
      (∀ sc : Scope, sc.check (F.around as e).kind = sc) := by
  cases F <;> exact ⟨rfl, rfl, fun _ => rfl⟩

theorem around_remove (F : Frame) {as : List Attr} (has : noHelp as = true) (e : Node) {s : String}
    (hs : s ∈ [NAME, NESTED, NEVER, "rec"]) : (F.around as e).findRemoveAttr s = none := by
  have := Fill.findRemove_any (Fill.noHelp_any has hs)
  cases F <;> simp [Frame.around, Node.findRemoveAttr, this]

theorem visitMode_around (sc : Scope) (c : Cx) (F : Frame) (as : List Attr) (e : Node) :
    visitMode sc c (F.around as e) = (c, F.around as e) := by
  unfold visitMode visitReturn visitTry
  cases F <;> cases c.mode <;> dsimp only [Frame.around] <;> first | rfl | exact ite_self _

theorem visit_around (env : Env) (f : Nat) (vk : VK) (c : Cx) (F : Frame) {as : List Attr}
    (has : noHelp as = true) (hr : stillL false F.rest = true) (hd : depthL F.rest ≤ f + 1) (e : Node)
    (he : e.kind.isExpr = true) :
    visit env (f + 2) vk {} c (F.around as e) =
      ((visit env (f + 1) vk {} c e).1, F.around as (visit env (f + 1) vk {} c e).2) := by
  obtain ⟨k1, k2, k3⟩ := around_facts F as e
  have hN : (F.around as e).anyAttr NAME = false := by
    unfold Node.anyAttr
    rw [k2]
    exact Fill.noHelp_any has (by simp)
  have hdepth : ∀ l : List Node, ∀ n ∈ l, depth n ≤ depthL l := by
    intro l
    induction l with
    | nil => intro n hn; cases hn
    | cons a l ih =>
      intro n hn
      rw [depthL]
      rcases List.mem_cons.mp hn with rfl | hn
      · omega
      · have := ih n hn; omega
  have hw : walk (visit env (f + 1) vk {}) c (F.around as e) =
      ((visit env (f + 1) vk {} c e).1, F.around as (visit env (f + 1) vk {} c e).2) := by
    refine walk_around c F as e (fun c n hn => ?_) (visit_tail env f vk {} c e he)
    refine Fill.visit_still env (f + 1) vk {} c n (Fill.stillL_mem (Fill.still_mono hr) n hn) ?_
    have := hdepth _ n hn
    omega
  have hidle : c.hasError = true → (visit env (f + 1) vk {} c e) = (c, e) := by
    intro hc
    cases vk <;> simp only [visit, visitorStep, dummyStep, he, hc, if_true]
  rw [show visit env (f + 2) = fun vk sc cx n => match vk with
    | .visitor => visitorStep env (visit env (f + 1)) sc cx n
    | .dummy => dummyStep env (visit env (f + 1)) sc cx n from rfl]
  dsimp only
  rcases Bool.eq_false_or_eq_true c.hasError with hc | hc
  · rw [hidle hc]; cases vk <;> simp [visitorStep, dummyStep, k1, hc]
  · cases vk with
    | dummy =>
      simp only [dummyStep, k1, hc, hN, Bool.false_eq_true, if_false, if_true, vsVisitExpr,
        around_remove F has e (s := NAME) (by simp)]
      exact hw
    | visitor =>
      simp only [visitorStep, k1, hc, Bool.false_eq_true, if_false, if_true]
      unfold visitExpr
      simp only [hN, hc, k3, Bool.not_false, Cx.assert, if_true, Bool.false_eq_true, if_false,
        visitMode_around, around_remove F has e (s := NESTED) (by simp), vsVisitExpr,
        around_remove F has e (s := NAME) (by simp), hw, Bool.true_or]
      have hm : ∀ (c : Cx) (n : Node), visitMarker {} c (F.around as n) = (c, F.around as n) := by
        intro c n
        unfold visitMarker
        cases F <;> rfl
      simp only [hm]
      unfold findRemoveAttrs
      simp only [Bool.false_eq_true, if_false, around_remove F has _ (s := NEVER) (by simp),
        around_remove F has _ (s := "rec") (by simp)]

end Frames

end AutoEnums
