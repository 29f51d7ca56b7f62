import Verif.Lemmas.Chains

/-! # Lemmas: the visitors on `if` chains and `match`es (for C76) -/

namespace AutoEnums

open Spec

namespace Chains

/-- With enough fuel the visit of `n` gives `r`. -/
def V (env : Env) (vk : VK) (c : Cx) (n : Node) (r : Cx × Node) : Prop :=
  ∃ F, ∀ f, F ≤ f → visit env f vk {} c n = r

/-- With enough fuel the visit of the nodes `l` gives `r`. -/
def VL (env : Env) (vk : VK) (c : Cx) (l : List Node) (r : Cx × List Node) : Prop :=
  ∃ F, ∀ f, F ≤ f → mapA (visit env f vk {}) c l = r

variable {env : Env} {vk : VK}

theorem V_halts (env : Env) (vk : VK) {c : Cx} (hi : Inv c) (n : Node) : ∃ c' n', V env vk c n (c', n') ∧ Inv c' := by
  obtain ⟨F, r, h⟩ := visit_halts env n vk {} c hi
  have h' : ∀ f, F ≤ f → visit env f vk {} c n = r := fun f hf => by
    rw [← visitB_true]; exact h f hf true
  refine ⟨r.1, r.2, ⟨F, h'⟩, ?_⟩
  rw [← h' F (Nat.le_refl _)]
  exact ((visit_good env F).tr vk {} c n hi).inv hi

theorem VL_nil (c : Cx) : VL env vk c [] (c, []) := ⟨0, fun _ _ => rfl⟩

theorem VL_cons {c c1 c2 : Cx} {n n' : Node} {l l' : List Node} (h1 : V env vk c n (c1, n'))
    (h2 : VL env vk c1 l (c2, l')) : VL env vk c (n :: l) (c2, n' :: l') := by
  obtain ⟨F, h1⟩ := h1
  obtain ⟨G, h2⟩ := h2
  refine ⟨max F G, fun f hf => ?_⟩
  rw [mapA, h1 f (by omega)]
  dsimp only
  rw [h2 f (by omega)]

theorem VL_halts (env : Env) (vk : VK) : ∀ (l : List Node) {c : Cx} (_ : Inv c), ∃ c' l', VL env vk c l (c', l') ∧ Inv c'
  | [], c, hi => ⟨c, [], VL_nil c, hi⟩
  | n :: l, c, hi => by
    obtain ⟨c1, n', h1, i1⟩ := V_halts env vk hi n
    obtain ⟨c2, l', h2, i2⟩ := VL_halts env vk l i1
    exact ⟨c2, _, VL_cons h1 h2, i2⟩

/-- After an error the node is left alone. -/
def Freezes (env : Env) (vk : VK) (n : Node) : Prop := ∀ c, c.hasError = true → V env vk c n (c, n)

theorem VL_freezes {l : List Node} (h : ∀ n ∈ l, Freezes env vk n) {c : Cx} (hc : c.hasError = true) :
    VL env vk c l (c, l) := by
  induction l with
  | nil => exact VL_nil c
  | cons a l ih => exact VL_cons (h a (by simp) c hc) (ih fun n hn => h n (by simp [hn]))

theorem freezes_expr {n : Node} (h : n.kind.isExpr = true) : Freezes env vk n := by
  intro c hc
  refine ⟨1, fun f hf => ?_⟩
  obtain ⟨f, rfl⟩ : ∃ g, f = g + 1 := ⟨f - 1, by omega⟩
  cases vk <;> simp only [visit, visitorStep, dummyStep, h, hc, if_true]

theorem freezes_stmt {n : Node} (h : n.kind.isStmt = true) : Freezes env vk n := by
  intro c hc
  have h2 : n.kind.isExpr = false := by
    obtain ⟨k, as, ks⟩ := n
    cases k <;> first | rfl | cases h
  refine ⟨1, fun f hf => ?_⟩
  obtain ⟨f, rfl⟩ : ∃ g, f = g + 1 := ⟨f - 1, by omega⟩
  cases vk <;> simp only [visit, visitorStep, dummyStep, h, h2, hc, if_true, Bool.false_eq_true, if_false, visitStmt]

/-- Nodes that are only visited for their kids. -/
def plainKind : Kind → Bool
  | .eIf | .eMatch | .eCall | .eBlock none | .eTuple => true
  | _ => false

theorem visit_plain (f : Nat) (c : Cx) {k : Kind} (hk : plainKind k = true) (ks : List Node) :
    visit env (f + 1) vk {} c (.mk k [] ks) =
      if c.hasError then (c, .mk k [] ks)
      else ((mapA (visit env f vk {}) c ks).1, .mk k [] (mapA (visit env f vk {}) c ks).2) := by
  have h1 : (Node.mk k [] ks).kind.isExpr = true := by
    unfold plainKind at hk
    split at hk <;> first | rfl | cases hk
  have hs : (Scope.check {} (Node.mk k [] ks).kind) = {} := by
    unfold plainKind at hk
    split at hk <;> first | rfl | cases hk
  have hsx : k.isOpaque = false := by
    unfold plainKind at hk
    split at hk <;> first | rfl | cases hk
  have hw : ∀ g : Cx → Node → Cx × Node, walk g c (.mk k [] ks) = ((mapA g c ks).1, .mk k [] (mapA g c ks).2) := by
    intro g
    simp only [walk, hsx, Bool.false_eq_true, if_false]
  have hn : (Node.mk k [] ks).anyAttr NAME = false := by
    unfold plainKind at hk
    split at hk <;> first | rfl | cases hk
  have hr : ∀ s ks, (Node.mk k [] ks).findRemoveAttr s = none := by
    intro s ks
    unfold Node.findRemoveAttr
    dsimp only
    split <;> rfl
  by_cases hc : c.hasError = true
  · rw [if_pos hc]
    cases vk <;> simp only [visit, visitorStep, dummyStep, h1, hc, if_true]
  · rw [if_neg hc]
    cases vk with
    | dummy =>
      show dummyStep env (visit env f) {} c (.mk k [] ks) = _
      unfold dummyStep vsVisitExpr
      rw [if_pos h1, if_neg hc, hn, hr]
      exact hw _
    | visitor =>
      show visitorStep env (visit env f) {} c (.mk k [] ks) = _
      rw [visitorStep, if_pos h1, if_neg hc]
      have ha : c.assert (!c.hasError) .visitAfterError = c := by simp [Cx.assert, hc]
      unfold visitExpr
      rw [ha]
      have hm : visitMode {} c (.mk k [] ks) = (c, .mk k [] ks) := by
        unfold visitMode visitReturn visitTry
        unfold plainKind at hk
        split at hk <;> first | (cases c.mode <;> dsimp only <;> first | rfl | exact ite_self _) | cases hk
      have hv : ∀ (c : Cx) (ks : List Node), visitMarker {} c (.mk k [] ks) = (c, .mk k [] ks) := by
        intro c ks
        unfold visitMarker
        unfold plainKind at hk
        split at hk <;> first | (simp [Cx.assert]; done) | cases hk
      simp only [hn, Bool.false_eq_true, if_false, hs, hm, hr, vsVisitExpr, hw, Bool.not_false, Bool.true_or, if_true, hv,
        findRemoveAttrs]

theorem V_plain {c c' : Cx} {k : Kind} (hk : plainKind k = true) {ks ks' : List Node} (hz : ∀ n ∈ ks, Freezes env vk n)
    (h : VL env vk c ks (c', ks')) : V env vk c (.mk k [] ks) (c', .mk k [] ks') := by
  obtain ⟨F, h⟩ := h
  by_cases hc : c.hasError = true
  · obtain ⟨G, hG⟩ := VL_freezes hz hc
    have e1 := h (max F G) (by omega)
    rw [hG (max F G) (by omega)] at e1
    cases e1
    refine ⟨1, fun f hf => ?_⟩
    obtain ⟨f, rfl⟩ : ∃ g, f = g + 1 := ⟨f - 1, by omega⟩
    rw [visit_plain f c hk, if_pos hc]
  · refine ⟨F + 1, fun f hf => ?_⟩
    obtain ⟨f, rfl⟩ : ∃ g, f = g + 1 := ⟨f - 1, by omega⟩
    rw [visit_plain f c hk, if_neg hc, h f (by omega)]

theorem V_block {c c' : Cx} {as : List Attr} {ks ks' : List Node} (h : VL env vk c ks (c', ks')) :
    V env vk c (.mk .block as ks) (c', .mk .block as ks') := by
  obtain ⟨F, h⟩ := h
  refine ⟨F + 1, fun f hf => ?_⟩
  obtain ⟨f, rfl⟩ : ∃ g, f = g + 1 := ⟨f - 1, by omega⟩
  have hw : ∀ g : Cx → Node → Cx × Node, walk g c (.mk .block as ks) = ((mapA g c ks).1, .mk .block as (mapA g c ks).2) :=
    fun _ => rfl
  cases vk with
  | visitor =>
    show walk (visit env f .visitor {}) c (.mk .block as ks) = _
    rw [hw, h f (by omega)]
  | dummy =>
    show walk (visit env f .dummy {}) c (.mk .block as ks) = _
    rw [hw, h f (by omega)]

theorem V_arm {c c' : Cx} {p : String} {ks ks' : List Node} (hz : ∀ n ∈ ks, Freezes env vk n)
    (h : VL env vk c ks (c', ks')) : V env vk c (.mk (.arm p) [] ks) (c', .mk (.arm p) [] ks') := by
  obtain ⟨F, h⟩ := h
  have hw : ∀ g : Cx → Node → Cx × Node, walk g c (.mk (.arm p) [] ks) = ((mapA g c ks).1, .mk (.arm p) [] (mapA g c ks).2) :=
    fun _ => rfl
  cases vk with
  | dummy =>
    refine ⟨F + 1, fun f hf => ?_⟩
    obtain ⟨f, rfl⟩ : ∃ g, f = g + 1 := ⟨f - 1, by omega⟩
    show walk (visit env f .dummy {}) c (.mk (.arm p) [] ks) = _
    rw [hw, h f (by omega)]
  | visitor =>
    have hstep : ∀ f, visit env (f + 1) .visitor {} c (.mk (.arm p) [] ks) = visitArm (visit env f) {} c (.mk (.arm p) [] ks) :=
      fun _ => rfl
    by_cases hc : c.hasError = true
    · obtain ⟨G, hG⟩ := VL_freezes hz hc
      have e1 := h (max F G) (by omega)
      rw [hG (max F G) (by omega)] at e1
      cases e1
      refine ⟨1, fun f hf => ?_⟩
      obtain ⟨f, rfl⟩ : ∃ g, f = g + 1 := ⟨f - 1, by omega⟩
      rw [hstep, visitArm, if_pos hc]
    · refine ⟨F + 1, fun f hf => ?_⟩
      obtain ⟨f, rfl⟩ : ∃ g, f = g + 1 := ⟨f - 1, by omega⟩
      have hr : ∀ s ks, (Node.mk (.arm p) [] ks).findRemoveAttr s = none := fun _ _ => rfl
      rw [hstep, visitArm, if_neg hc]
      simp only [Bool.false_eq_true, if_false, hr, hw, h f (by omega), findRemoveAttrs]

theorem V_tail {c c' : Cx} {e e' : Node} (he : e.kind.isExpr = true) (h : V env vk c e (c', e')) :
    V env vk c (tailS e) (c', tailS e') := by
  obtain ⟨F, h⟩ := h
  refine ⟨F + 1, fun f hf => ?_⟩
  obtain ⟨f, rfl⟩ : ∃ g, f = g + 1 := ⟨f - 1, by omega⟩
  rw [tailS, Frames.visit_tail env f vk {} c e he, h (f + 1) (by omega)]
  rfl

/-- The body of an arm and the block of a branch are visited alike. -/
theorem body_both {b : Node} (hb : Body b) {c : Cx} (hi : Inv c) :
    ∃ c' b', V env vk c b (c', b') ∧ VL env vk c (asBlock b) (c', asBlock b') ∧ Inv c' := by
  obtain ⟨ss, hp, rfl | ⟨p, rfl⟩⟩ := hb
  · obtain ⟨c', ss', h, hi'⟩ := VL_halts env vk ss hi
    refine ⟨c', exprBlock ss', V_plain rfl (fun n hn => freezes_stmt (proper_stmt (List.all_eq_true.mp hp n hn))) h, h, hi'⟩
  · obtain ⟨c', ks', h, hi'⟩ := VL_halts env vk [pathE p, exprBlock ss] hi
    have hv : V env vk c (exprCall [] p (exprBlock ss)) (c', .mk .eCall [] ks') := by
      refine V_plain rfl (fun n hn => freezes_expr ?_) h
      simp only [List.mem_cons, List.not_mem_nil, or_false] at hn
      rcases hn with rfl | rfl <;> rfl
    exact ⟨c', .mk .eCall [] ks', hv, VL_cons (V_tail rfl hv) (VL_nil c'), hi'⟩

theorem body_freezes {b : Node} (hb : Body b) : Freezes env vk b ∧ ∀ n ∈ asBlock b, Freezes env vk n := by
  obtain ⟨ss, hp, rfl | ⟨p, rfl⟩⟩ := hb
  · exact ⟨freezes_expr rfl, fun n hn => freezes_stmt (proper_stmt (List.all_eq_true.mp hp n hn))⟩
  · refine ⟨freezes_expr rfl, fun n hn => ?_⟩
    rw [asBlock_call, List.mem_singleton] at hn
    subst hn
    exact freezes_stmt rfl

theorem elseIf_expr {P : Node → Prop} {arms : List Node} (h : Arms P arms) : (elseIf arms).kind.isExpr = true := by
  cases h with
  | last _ => rfl
  | cons _ _ _ => rw [elseIf_cons]; rfl

/-- The arms of a `match` and the branches of an `if` are visited alike. -/
theorem chain_both : ∀ {arms : List Node} {c : Cx}, Arms Body arms → Inv c →
    ∃ c' arms', VL env vk c arms (c', arms') ∧ V env vk c (elseIf arms) (c', elseIf arms') := by
  intro arms
  induction arms with
  | nil => intro c h; cases h
  | cons a arms ih =>
    intro c h hi
    cases h with
    | @last p b hb =>
      obtain ⟨c', b', h1, h2, _⟩ := body_both (env := env) (vk := vk) hb hi
      have hz := body_freezes (env := env) (vk := vk) hb
      refine ⟨c', [.mk (.arm p) [] [b']], VL_cons (V_arm ?_ (VL_cons h1 (VL_nil c'))) (VL_nil c'), V_plain rfl hz.2 h2⟩
      intro n hn
      rw [List.mem_singleton] at hn
      subst hn
      exact hz.1
    | @cons p e b _ he hb h =>
      obtain ⟨c1, e', h1, i1⟩ := V_halts env vk hi e
      obtain ⟨c2, b', h2, h3, i2⟩ := body_both (env := env) (vk := vk) hb i1
      have hz := body_freezes (env := env) (vk := vk) hb
      obtain ⟨c3, arms', h4, h5⟩ := ih h i2
      refine ⟨c3, .mk (.arm p) [] [e', b'] :: arms', VL_cons (V_arm ?_ (VL_cons h1 (VL_cons h2 (VL_nil c2)))) h4, ?_⟩
      · intro n hn
        simp only [List.mem_cons, List.not_mem_nil, or_false] at hn
        rcases hn with rfl | rfl
        · exact freezes_expr he
        · exact hz.1
      · rw [elseIf_cons, elseIf_cons]
        refine V_plain rfl ?_ (VL_cons h1 (VL_cons (V_block h3) (VL_cons h5 (VL_nil c3))))
        intro n hn
        simp only [List.mem_cons, List.not_mem_nil, or_false] at hn
        rcases hn with rfl | rfl | rfl
        · exact freezes_expr he
        · intro c hc
          exact V_block (VL_freezes hz.2 hc)
        · exact freezes_expr (elseIf_expr h)

end Chains

end AutoEnums
