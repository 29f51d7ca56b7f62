import Verif.Spec.Chains
import Verif.Lemmas.Closure
import Verif.Lemmas.Converge
import Verif.Lemmas.Skip
import Verif.Lemmas.Frames

/-! # Lemmas: `if` chains and `match`es (for C76) -/

namespace AutoEnums

open Spec

namespace Chains

/-! ## `child_expr` -/

theorem wrapArm_eq {c : Cx} {p : String} {g : List Node} {ss : List Node} (hg : g.length ≤ 1)
    (hn : findNested (.mk (.arm p) [] (g ++ [exprBlock ss])) = false) :
    wrapArm c (.mk (.arm p) [] (g ++ [exprBlock ss])) =
      if isUnreachableLast c ss then (c, .mk (.arm p) [] (g ++ [exprBlock ss]))
      else ((c.nextExpr (exprBlock ss)).1, .mk (.arm p) [] (g ++ [(c.nextExpr (exprBlock ss)).2])) := by
  have hu : isUnreachable c (exprBlock ss) = isUnreachableLast c ss := by
    rw [exprBlock, isUnreachable.eq_def]
    rfl
  have hs : skipArm c (.mk (.arm p) [] (g ++ [exprBlock ss])) = isUnreachableLast c ss := by
    match g, hg with
    | [], _ =>
      simp only [List.nil_append] at hn ⊢
      simp only [skipArm, armBody, hn, hu, Bool.or_false]
      rfl
    | [a], _ =>
      simp only [List.cons_append, List.nil_append] at hn ⊢
      simp only [skipArm, armBody, hn, hu, Bool.or_false]
      rfl
  unfold wrapArm
  rw [hs]
  split
  · rfl
  · match g, hg with
    | [], _ => rfl
    | [a], _ => rfl

theorem proper_stmt {s : Node} (h : properStmt s = true) : s.kind.isStmt = true := by
  unfold properStmt at h
  split at h <;> first | rfl | cases h

theorem nested_name {c : Cx} {e : Node} (he : e.kind.isExpr = true) (h : e.anyEmptyAttr NESTED = true)
    (hf : findNested e = false) : isUnreachable c e = true := by
  obtain ⟨k, as, ks⟩ := e
  have key : k.hasAttrs = true ∧ anyAttr as NAME = true := by
    have ha : (Node.mk k as ks).attrs = if k.hasAttrs then as else [] := by
      cases k <;> first | rfl | cases he
    rw [Node.anyEmptyAttr, ha] at h
    cases hk : k.hasAttrs with
    | false => rw [hk] at h; cases h
    | true =>
      rw [hk] at h
      have he' : k.isExpr = true := he
      change anyEmptyAttr as NESTED = true at h
      refine ⟨rfl, ?_⟩
      rw [findNested] at hf
      · split at hf
        · simpa [he', hk, h] using hf
        · simpa [h] using hf
      · rintro rfl; cases he'
      · rintro _ rfl; cases he'
      · rintro _ _ rfl; cases he'
      · rintro _ rfl; cases he'
  rw [isUnreachable.eq_def]
  simp [key.1, key.2]

theorem wrapBlock_eq {c : Cx} {ss : List Node} (hp : ss.all properStmt = true) (hn : findNestedL ss = false) :
    wrapBlock c ss = if isUnreachableLast c ss then (c, ss)
      else ((c.nextExpr (exprBlock ss)).1, [tailS (c.nextExpr (exprBlock ss)).2]) := by
  have hs : skipBlock c ss = isUnreachableLast c ss := by
    rcases List.eq_nil_or_concat ss with rfl | ⟨i, a, rfl⟩
    · rfl
    · rw [List.concat_eq_append] at hn ⊢
      unfold skipBlock
      rw [List.getLast?_append, List.getLast?_singleton, hn]
      dsimp only [Option.or]
      split
      · rename_i as e heq
        cases heq
        rw [Pad.unreachableLast_append]
        simp only [isUnreachableLast, Bool.or_false]
        by_cases h : e.anyEmptyAttr NESTED = true
        · -- then the expression has an inner attribute
          rw [h]
          have hf : findNested e = false := by
            have : ∀ l : List Node, findNestedL (l ++ [.mk (.sExpr false) as [e]]) = false → findNested e = false := by
              intro l
              induction l with
              | nil => intro h; simpa [findNestedL, findNested, Kind.isOpaque] using h
              | cons b l ih => intro h; simp only [List.cons_append, findNestedL, Bool.or_eq_false_iff] at h; exact ih h.2
            exact this i hn
          have he : properStmt (.mk (.sExpr false) as [e]) = true := List.all_eq_true.mp hp _ (by simp)
          rw [nested_name he h hf]
          rfl
        · simp [h]
      · rfl
  unfold wrapBlock
  rw [hs]

/-- The statements of a block. -/
theorem bareBlock_form {b : Node} (h : bareBlock b = true) : ∃ ss, b = exprBlock ss ∧ ss.all properStmt = true := by
  unfold bareBlock at h
  split at h
  · rename_i as ss
    simp only [Bool.and_eq_true, List.isEmpty_iff] at h
    obtain ⟨rfl, h⟩ := h
    exact ⟨ss, rfl, h⟩
  · cases h

/-- A body before or after it is wrapped. -/
def Body (b : Node) : Prop := ∃ ss, ss.all properStmt = true ∧ (b = exprBlock ss ∨ ∃ p, b = exprCall [] p (exprBlock ss))

/-- The form of the arms. -/
inductive Arms (P : Node → Prop) : List Node → Prop where
  | last {p : String} {b : Node} : P b → Arms P [.mk (.arm p) [] [b]]
  | cons {p : String} {c b : Node} {arms : List Node} : c.kind.isExpr = true → P b → Arms P arms →
      Arms P (.mk (.arm p) [] [c, b] :: arms)

theorem arms_of {p : Node → Bool} : ∀ {arms : List Node}, guarded p arms = true → Arms (fun b => p b = true) arms
  | [], h => by simp [guarded] at h
  | .mk k as ks :: arms, h => by
    unfold guarded at h
    split at h
    · rename_i heq
      cases heq
      simp only [Bool.and_eq_true, List.isEmpty_iff] at h
      obtain ⟨rfl, h⟩ := h
      exact .last h
    · rename_i heq
      cases heq
      simp only [Bool.and_eq_true, List.isEmpty_iff] at h
      obtain ⟨⟨⟨rfl, h1⟩, h2⟩, h3⟩ := h
      exact .cons h1 h2 (arms_of h3)
    · cases h

theorem elseIf_cons {p : String} {as : List Attr} {c b : Node} {arms : List Node} :
    elseIf (.mk (.arm p) as [c, b] :: arms) = .mk .eIf [] [c, .mk .block [] (asBlock b), elseIf arms] := by
  rw [elseIf]

theorem asBlock_block (ss : List Node) : asBlock (exprBlock ss) = ss := rfl

theorem asBlock_call (p : Path) (e : Node) : asBlock (exprCall [] p e) = [tailS (exprCall [] p e)] := rfl

theorem elseIf_kind {P : Node → Prop} {arms : List Node} (h : Arms P arms) :
    (elseIf arms).kind = .eIf ∨ ∃ p b, arms = [.mk (.arm p) [] [b]] ∧ elseIf arms = exprBlock (asBlock b) := by
  cases h with
  | last _ => exact .inr ⟨_, _, rfl, rfl⟩
  | cons _ _ _ => exact .inl (by rw [elseIf_cons]; rfl)

theorem wrap_both {c : Cx} {p : String} {g : List Node} {ss : List Node} (hg : g.length ≤ 1) (hp : ss.all properStmt = true)
    (hn : findNested (.mk (.arm p) [] (g ++ [exprBlock ss])) = false) :
    ∃ b, Body b ∧ wrapArm c (.mk (.arm p) [] (g ++ [exprBlock ss])) = ((wrapBlock c ss).1, .mk (.arm p) [] (g ++ [b])) ∧
      (wrapBlock c ss).2 = asBlock b := by
  have hl : findNestedL ss = false := by
    have : ∀ l : List Node, findNestedL (l ++ [exprBlock ss]) = false → findNestedL ss = false := by
      intro l
      induction l with
      | nil =>
        intro h
        simpa [findNestedL, findNested, Kind.isOpaque, exprBlock, anyAttr, anyEmptyAttr] using h
      | cons b l ih => intro h; simp only [List.cons_append, findNestedL, Bool.or_eq_false_iff] at h; exact ih h.2
    refine this g ?_
    simpa [findNested, Kind.isOpaque, anyEmptyAttr] using hn
  rw [wrapArm_eq hg hn, wrapBlock_eq hp hl]
  split
  · exact ⟨exprBlock ss, ⟨ss, hp, .inl rfl⟩, rfl, rfl⟩
  · exact ⟨_, ⟨ss, hp, .inr ⟨_, rfl⟩⟩, rfl, rfl⟩

theorem visitIf_else (c : Cx) (as asb as' : List Attr) (e : Node) (ss ss' : List Node) (l : Option String) :
    visitIf c (.mk .eIf as [e, .mk .block asb ss, .mk (.eBlock l) as' ss']) =
      ((wrapBlock (wrapBlock c ss).1 ss').1, .mk .eIf as [e, .mk .block asb (wrapBlock c ss).2,
        .mk (.eBlock l) as' (wrapBlock (wrapBlock c ss).1 ss').2]) := by
  rw [visitIf.eq_def]
  rfl

theorem visitIf_if (c : Cx) (as asb as' : List Attr) (e : Node) (ss ks : List Node) :
    visitIf c (.mk .eIf as [e, .mk .block asb ss, .mk .eIf as' ks]) =
      ((visitIf (wrapBlock c ss).1 (.mk .eIf as' ks)).1, .mk .eIf as [e, .mk .block asb (wrapBlock c ss).2,
        (visitIf (wrapBlock c ss).1 (.mk .eIf as' ks)).2]) := by
  rw [visitIf.eq_def]
  rfl

/-- The arms of the `match` and the branches of the `if` are wrapped alike. -/
theorem wraps_both : ∀ {arms : List Node} (c : Cx), Arms (fun b => bareBlock b = true) arms → findNestedL arms = false →
    2 ≤ arms.length → Arms Body (mapA wrapArm c arms).2 ∧
      visitIf c (elseIf arms) = ((mapA wrapArm c arms).1, elseIf (mapA wrapArm c arms).2) := by
  intro arms
  induction arms with
  | nil => intro c h; cases h
  | cons a arms ih =>
    intro c h hn hl
    cases h with
    | last _ => simp at hl
    | @cons p e b _ he hb h =>
      simp only [findNestedL, Bool.or_eq_false_iff] at hn
      obtain ⟨ss, rfl, hp⟩ := bareBlock_form hb
      obtain ⟨b', hb', w1, w2⟩ := wrap_both (c := c) (p := p) (g := [e]) (by simp) hp hn.1
      simp only [List.cons_append, List.nil_append] at w1
      have hm : mapA wrapArm c (.mk (.arm p) [] [e, exprBlock ss] :: arms) =
          ((mapA wrapArm (wrapBlock c ss).1 arms).1, .mk (.arm p) [] [e, b'] :: (mapA wrapArm (wrapBlock c ss).1 arms).2) := by
        rw [mapA, w1]
      rw [hm, elseIf_cons, elseIf_cons, asBlock_block]
      dsimp only
      cases h with
      | @last q b2 hb2 =>
        obtain ⟨ss2, rfl, hp2⟩ := bareBlock_form hb2
        have hn2 : findNested (.mk (.arm q) [] ([] ++ [exprBlock ss2])) = false := by
          have := hn.2
          rw [findNestedL, Bool.or_eq_false_iff] at this
          exact this.1
        obtain ⟨b3, hb3, w3, w4⟩ := wrap_both (c := (wrapBlock c ss).1) (p := q) (g := []) (by simp) hp2 hn2
        simp only [List.nil_append] at w3
        have hm2 : mapA wrapArm (wrapBlock c ss).1 [.mk (.arm q) [] [exprBlock ss2]] =
            ((wrapBlock (wrapBlock c ss).1 ss2).1, [.mk (.arm q) [] [b3]]) := by
          rw [mapA, w3]
          rfl
        rw [hm2]
        refine ⟨.cons he hb' (.last hb3), ?_⟩
        have h1 : elseIf [.mk (.arm q) [] [exprBlock ss2]] = .mk (.eBlock none) [] ss2 := rfl
        have h2 : elseIf [.mk (.arm q) [] [b3]] = .mk (.eBlock none) [] (asBlock b3) := rfl
        rw [h1, h2, visitIf_else, w2, w4]
      | @cons q e2 b2 arms2 he2 hb2 h2 =>
        have hl' : 2 ≤ (Node.mk (.arm q) [] [e2, b2] :: arms2).length := by
          cases h2 <;> simp
        obtain ⟨i1, i2⟩ := ih (wrapBlock c ss).1 (.cons he2 hb2 h2) hn.2 hl'
        refine ⟨.cons he hb' i1, ?_⟩
        rw [elseIf_cons] at i2 ⊢
        rw [visitIf_if, i2, w2]

theorem arms_mono {P Q : Node → Prop} (hPQ : ∀ b, P b → Q b) : ∀ {arms : List Node}, Arms P arms → Arms Q arms
  | _, .last hb => .last (hPQ _ hb)
  | _, .cons he hb h => .cons he (hPQ _ hb) (arms_mono hPQ h)

theorem body_bare (b : Node) (h : bareBlock b = true) : Body b := by
  obtain ⟨ss, rfl, hp⟩ := bareBlock_form h
  exact ⟨ss, hp, .inl rfl⟩

theorem wrap_unreachable {P : Node → Prop} : ∀ {arms : List Node} (c : Cx), Arms P arms → isUnreachableArms c arms = true →
    mapA wrapArm c arms = (c, arms)
  | _, c, .last (p := p) (b := b) hb, h => by
    simp only [isUnreachableArms, Bool.and_true, Bool.or_eq_true] at h
    have hs : isUnreachable c b = true := h.resolve_left (by simp [anyEmptyAttr])
    have : wrapArm c (.mk (.arm p) [] [b]) = (c, .mk (.arm p) [] [b]) := by
      unfold wrapArm
      rw [if_pos (by simp [skipArm, armBody, hs])]
    rw [mapA, this]
    rfl
  | _, c, .cons (p := p) (c := e) (b := b) he hb h', h => by
    rw [isUnreachableArms, Bool.and_eq_true, Bool.or_eq_true] at h
    have hs : isUnreachable c b = true := h.1.resolve_left (by simp [anyEmptyAttr])
    have : wrapArm c (.mk (.arm p) [] [e, b]) = (c, .mk (.arm p) [] [e, b]) := by
      unfold wrapArm
      rw [if_pos (by simp [skipArm, armBody, hs])]
    rw [mapA, this]
    dsimp only
    rw [wrap_unreachable c h' h.2]

theorem child_both (c : Cx) (s : Node) {arms : List Node} (h : Arms (fun b => bareBlock b = true) arms)
    (hn : findNestedL arms = false) (hl : 2 ≤ arms.length) :
    ∃ c' arms', Arms Body arms' ∧ childExpr c (.mk .eMatch [] (s :: arms)) = (c', .mk .eMatch [] (s :: arms')) ∧
      childExpr c (elseIf arms) = (c', elseIf arms') := by
  have hif : ∃ ks, elseIf arms = .mk .eIf [] ks := by
    cases h with
    | last _ => simp at hl
    | cons _ _ _ => exact ⟨_, elseIf_cons⟩
  obtain ⟨ks, hif⟩ := hif
  cases hv : c.visitLast with
  | false =>
    refine ⟨c, arms, arms_mono body_bare h, ?_, ?_⟩
    · exact Frames.childExpr_idle' (by simp [hv])
    · exact Frames.childExpr_idle' (by simp [hv])
  | true =>
    obtain ⟨w1, w2⟩ := wraps_both c h hn hl
    refine ⟨(mapA wrapArm c arms).1, (mapA wrapArm c arms).2, w1, ?_, ?_⟩
    · by_cases hu : isUnreachable c (.mk .eMatch [] (s :: arms)) = true
      · rw [Frames.childExpr_idle' (by simp [hu])]
        have : isUnreachableArms c arms = true := by
          rw [isUnreachable.eq_def] at hu
          simpa [anyEmptyAttr, anyAttr] using hu
        rw [wrap_unreachable c h this]
      · rw [childExpr.eq_def]
        dsimp only
        rw [if_neg (by simp [hv, hu])]
    · rw [← w2, hif]
      have hu : isUnreachable c (.mk .eIf [] ks) = false := by
        rw [isUnreachable.eq_def]
        simp [anyEmptyAttr, anyAttr]
      rw [childExpr.eq_def]
      dsimp only
      rw [if_neg (by simp [hv, hu])]

end Chains

end AutoEnums
