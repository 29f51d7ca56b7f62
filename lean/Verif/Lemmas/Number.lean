import Verif.Lemmas.Skip
import Verif.Lemmas.Result

/-! # Lemmas: the variants of the arms of a `match` in result position -/

namespace AutoEnums

open Spec Judg

theorem nodeAnyAttr {k : Kind} {as : List Attr} {ks : List Node} {s : String}
    (hk : k.isExpr = true) (h : anyAttr as s = false) : (Node.mk k as ks).anyAttr s = false := by
  unfold Node.anyAttr
  rw [Node.attrs.eq_def]
  cases k <;> first | exact h | rfl | cases hk

theorem findRemove_form {as : List Attr} {s : String} (h : anyEmptyAttr as s = false) {a : Attr}
    {as' : List Attr} (hr : findRemove (·.is s) as = some (a, as')) : a.form ≠ .path := by
  induction as generalizing as' with
  | nil => cases hr
  | cons b as ih =>
    simp only [anyEmptyAttr, List.any_cons, Bool.or_eq_false_iff] at h
    simp only [findRemove] at hr
    split at hr
    · rename_i hb
      cases hr
      intro hp
      simp [Attr.isEmpty, hb, hp] at h
    · split at hr
      · rename_i heq
        cases hr
        exact ih h.2 heq
      · cases hr

theorem findRemoveAttr_form {n n' : Node} {a : Attr} (h : anyEmptyAttr n.rawAttrs NESTED = false)
    (hr : n.findRemoveAttr NESTED = some (a, n')) : a.form ≠ .path := by
  obtain ⟨k, as, ks⟩ := n
  unfold Node.findRemoveAttr at hr
  dsimp only at hr
  split at hr
  · split at hr
    · rename_i heq
      cases hr
      exact findRemove_form h heq
    · cases hr
  · cases hr

/-- What a visit does with an expression that is neither attributed nor special. -/
theorem Run.node {env : Env} {sc : Scope} {semi : Bool} {cx cx' : Cx} {k : Kind} {as : List Attr}
    {ks : List Node} {n' : Node} (hf : sc.foreign = false) (hn : anyAttr as NAME = false)
    (hne : anyEmptyAttr as NESTED = false) (h1 : k ≠ .eReturn) (h2 : k ≠ .eTry)
    (hk : k.isExpr = true) (ho : k.isOpaque = false)
    (hr : Run env (expr .visitor sc semi cx (.mk k as ks) cx' n')) :
    ∃ sc' cx2 as' ks', sc'.foreign = false ∧ Run env (many .visitor sc' cx ks cx2 ks') ∧
      n' = .mk k as' ks' ∧ (as = [] → as' = []) := by
  have hN := nodeAnyAttr (k := k) (ks := ks) hk hn
  have hmac : ∀ p t, k ≠ .eMacro p t := by rintro p t rfl; cases ho
  have hen : enter .visitor sc (.mk k as ks) = sc.check k := by
    simp only [enter, hN, Node.kind]
    rfl
  have hfc : (sc.check k).foreign = false := by
    cases k <;> exact hf
  have hpre : Clean (pre .visitor (sc.check k) cx (.mk k as ks)).1 →
      pre .visitor (sc.check k) cx (.mk k as ks) = (cx, .mk k as ks) := by
    intro hc
    simp only [pre, seen, hN, Bool.false_eq_true, if_false, visitMode_other h1 h2, nestedStep, hfc] at hc ⊢
    split at hc
    · rename_i a n heq
      have := findRemoveAttr_form (n := .mk k as ks) hne heq
      simp [visitNested, this] at hc
      exact (clean_error hc).elim
    · rename_i heq
      rfl
  cases hr with
  | child _ _ h => rw [hN] at h; cases h
  | @plain _ _ _ _ cx2 ks' _ c1 c2 c3 c4 c5 c6 c7 =>
    rw [hen] at c2 c5 c7 ⊢
    rw [hpre c2] at c5 c7 ⊢
    have hs : (Node.mk k as ks).sub = ks := by simp [Node.sub, ho]
    have hb : (Node.mk k as ks).rebuild ks' = .mk k as ks' := by simp [Node.rebuild, ho]
    have hm : visitMarker (sc.check k) cx2 (.mk k as ks') = (cx2, .mk k as ks') := by
      unfold visitMarker
      simp only [hfc, Bool.not_false, Bool.true_or, Cx.assert, if_true]
      split
      · rename_i heq; cases heq; cases ho
      · rfl
    rw [hs] at c5
    rw [hb] at c7 ⊢
    simp only [post, hfc, Bool.not_false, Bool.true_or, if_true, hm] at c7 ⊢
    rw [findRemoveAttrs_pend hfc c7]
    exact ⟨_, _, _, _, hfc, c5, rfl, by rintro rfl; split <;> rfl⟩

theorem Run.last {env : Env} {vk : VK} {sc : Scope} {cx cx2 : Cx} {ks ks2 : List Node} {n : Node}
    (h : Run env (many vk sc cx (ks ++ [n]) cx2 ks2)) : ∃ cx1 ks' n', ks2 = ks' ++ [n'] ∧
      Run env (one vk sc cx1 n cx2 n') := by
  induction ks generalizing cx ks2 with
  | nil =>
    cases h with
    | cons h1 h2 => cases h2; exact ⟨_, [], _, rfl, h1⟩
  | cons k ks ih =>
    cases h with
    | cons h1 h2 =>
      obtain ⟨cx1, ks', n', rfl, h⟩ := ih h2
      exact ⟨cx1, _ :: ks', n', rfl, h⟩

theorem clearWayLast_append (ks : List Node) (n : Node) :
    clearWayLast (ks ++ [n]) = clearWayLast [n] := by
  induction ks with
  | nil => rfl
  | cons m ms ih =>
    cases ms with
    | nil => simp only [List.cons_append, List.nil_append, clearWayLast]
    | cons m' ms => simpa only [List.cons_append, clearWayLast] using ih

theorem Run.way_last {env : Env} {sc : Scope} {cx cx' : Cx} {ks ks' : List Node}
    (hf : sc.foreign = false) (hx : isBranching (lastOf ks).kind = true)
    (hc : clearWayLast ks = true) (hr : Run env (many .visitor sc cx ks cx' ks'))
    (ih : ∀ m, sizeOf m < sizeOf ks → ∀ sc semi cx cx' n', sc.foreign = false →
      isBranching (resultOf m).kind = true → clearWay m = true →
      Run env (expr .visitor sc semi cx m cx' n') → ∃ sc1 semi1 cx1 cx2, sc1.foreign = false ∧
        Run env (expr .visitor sc1 semi1 cx1 (resultOf m) cx2 (resultOf n'))) :
    ∃ sc1 semi1 cx1 cx2, sc1.foreign = false ∧
      Run env (expr .visitor sc1 semi1 cx1 (lastOf ks) cx2 (lastOf ks')) := by
  rcases List.eq_nil_or_concat ks with rfl | ⟨ms, n, rfl⟩
  · cases hx
  · rw [List.concat_eq_append] at *
    obtain ⟨cx1, ks1, n1, rfl, h⟩ := hr.last
    rw [lastOf_append] at hx
    rw [clearWayLast_append] at hc
    rw [lastOf_append, lastOf_append]
    unfold lastOf at hx
    split at hx
    · rename_i h; cases h
    · rename_i as e h
      cases h
      simp only [clearWayLast] at hc
      have hsz : sizeOf e < sizeOf (ms ++ [Node.mk (.sExpr false) as [e]]) := by
        have : ∀ (l : List Node) (n : Node), sizeOf n < sizeOf (l ++ [n]) := by
          intro l n
          induction l with
          | nil => simp; omega
          | cons _ _ ih => simp at ih ⊢; omega
        have := this ms (.mk (.sExpr false) as [e])
        simp at this ⊢
        omega
      cases h with
      | oneStmt h => 
        simp only [lastOf]
        exact ih e hsz _ _ _ _ _ hf hx hc h
      | oneExpr h => cases h
      | oneArm h => cases h
      | oneLocal h => cases h
      | oneLocalChild h => cases h
      | oneBlock _ h => cases h
      | oneInert _ _ h => exact (h _ _ _ rfl).elim
    · cases hx
    · rename_i h; simp at h

theorem Run.toExpr {env : Env} {vk : VK} {sc : Scope} {cx cx' : Cx} {n n' : Node}
    (h : Run env (one vk sc cx n cx' n')) (hk : n.kind.isExpr = true) :
    Run env (expr vk sc false cx n cx' n') := by
  cases h with
  | oneExpr _ h => exact h
  | oneStmt h => cases hk
  | oneArm h => rw [h] at hk; cases hk
  | oneLocal h => rw [h] at hk; cases hk
  | oneLocalChild h => rw [h] at hk; cases hk
  | oneBlock h => rw [h] at hk; cases hk
  | oneInert h =>
    obtain ⟨k, as, ks⟩ := n
    cases k <;> first | cases hk; done | cases h

theorem isExpr_of_branching {n : Node} (h : isBranching (resultOf n).kind = true) :
    n.kind.isExpr = true := by
  obtain ⟨k, as, ks⟩ := n
  rw [resultOf.eq_def] at h
  cases k <;> first | rfl | cases h

/-- A visit reaches the expression in result position. -/
theorem Run.way {env : Env} : ∀ n sc semi cx cx' n', sc.foreign = false →
    isBranching (resultOf n).kind = true → clearWay n = true →
    Run env (expr .visitor sc semi cx n cx' n') → ∃ sc1 semi1 cx1 cx2, sc1.foreign = false ∧
      Run env (expr .visitor sc1 semi1 cx1 (resultOf n) cx2 (resultOf n')) := by
  apply Node.strongInd (P := fun n => ∀ sc semi cx cx' n', sc.foreign = false →
    isBranching (resultOf n).kind = true → clearWay n = true →
    Run env (expr .visitor sc semi cx n cx' n') → ∃ sc1 semi1 cx1 cx2, sc1.foreign = false ∧
      Run env (expr .visitor sc1 semi1 cx1 (resultOf n) cx2 (resultOf n')))
  intro n ih sc semi cx cx' n' hf hx hc hr
  obtain ⟨k, as, ks⟩ := n
  have hnode : k ≠ .eReturn → k ≠ .eTry → k.isExpr = true → k.isOpaque = false →
      ∃ sc' cx2 as' ks', sc'.foreign = false ∧ Run env (many .visitor sc' cx ks cx2 ks') ∧
      n' = .mk k as' ks' ∧ (as = [] → as' = []) := by
    intro h1 h2 h3 h4
    rw [clearWay.eq_def] at hc
    simp only [Bool.and_eq_true, Bool.not_eq_true', inner_eq, marked_eq] at hc
    exact hr.node hf hc.1.1 hc.1.2 h1 h2 h3 h4
  have hself : isBranching k = true → ∃ sc1 semi1 cx1 cx2, sc1.foreign = false ∧
      Run env (expr .visitor sc1 semi1 cx1 (resultOf (.mk k as ks)) cx2 (resultOf n')) := by
    intro hk
    obtain ⟨_, _, as', ks', _, _, rfl, _⟩ := hnode (by rintro rfl; cases hk) (by rintro rfl; cases hk)
      (by cases k <;> first | rfl | cases hk) (by cases k <;> first | rfl | cases hk)
    have : ∀ as ks, resultOf (.mk k as ks) = .mk k as ks := by
      intro as ks
      rw [resultOf.eq_def]
      cases k <;> first | rfl | cases hk
    rw [this, this]
    exact ⟨_, _, _, _, hf, hr⟩
  have hkid : resultOf (.mk k as ks) = .mk k as ks → ∃ sc1 semi1 cx1 cx2, sc1.foreign = false ∧
      Run env (expr .visitor sc1 semi1 cx1 (resultOf (.mk k as ks)) cx2 (resultOf n')) := by
    intro h
    exact hself (by rw [h] at hx; exact hx)
  rw [clearWay.eq_def] at hc
  cases k <;> try (refine hkid ?_; rw [resultOf.eq_def]; done)
  case eBlock l =>
    obtain ⟨_, _, as', ks', h1, h2, rfl, _⟩ := hnode (by simp) (by simp) rfl rfl
    simp only [Bool.and_eq_true] at hc
    simp only [resultOf] at hx ⊢
    exact h2.way_last h1 hx hc.2 fun m hm => ih m (by simp; omega)
  case eUnsafe =>
    obtain ⟨_, _, as', ks', h1, h2, rfl, _⟩ := hnode (by simp) (by simp) rfl rfl
    simp only [Bool.and_eq_true] at hc
    simp only [resultOf] at hx ⊢
    exact h2.way_last h1 hx hc.2 fun m hm => ih m (by simp; omega)
  case eParen =>
    rcases ks with _ | ⟨e, _ | ⟨e2, es⟩⟩
    · refine hkid ?_
      rw [resultOf.eq_def]
    · obtain ⟨_, _, as', ks', h1, h2, rfl, _⟩ := hnode (by simp) (by simp) rfl rfl
      simp only [Bool.and_eq_true] at hc
      cases h2 with
      | cons h2 h3 =>
        cases h3
        simp only [resultOf] at hx ⊢
        exact ih e (by simp; omega) _ _ _ _ _ h1 hx hc.2 (h2.toExpr (isExpr_of_branching hx))
    · refine hkid ?_
      rw [resultOf.eq_def]
  case eMethodCall m =>
    rcases ks with _ | ⟨e, es⟩
    · refine hkid ?_
      rw [resultOf.eq_def]
    · obtain ⟨_, _, as', ks', h1, h2, rfl, _⟩ := hnode (by simp) (by simp) rfl rfl
      simp only [Bool.and_eq_true] at hc
      cases h2 with
      | cons h2 h3 =>
        simp only [resultOf] at hx ⊢
        exact ih e (by simp; omega) _ _ _ _ _ h1 hx hc.2 (h2.toExpr (isExpr_of_branching hx))

/-- A visit keeps the constructors that are there. -/
theorem Run.construct {env : Env} {sc : Scope} {semi : Bool} {cx cx' : Cx} {en v : Ident}
    {e n' : Node} (hf : sc.foreign = false)
    (hr : Run env (expr .visitor sc semi cx (construct [] en v e) cx' n')) :
    ∃ e', n' = construct [] en v e' := by
  obtain ⟨sc1, cx2, as', ks', h1, h2, rfl, ha⟩ := hr.node hf rfl rfl (by simp) (by simp) rfl rfl
  cases ha rfl
  cases h2 with
  | cons g1 g2 =>
    obtain ⟨_, _, as', ks', _, g3, rfl, ha⟩ :=
      (g1.toExpr rfl).node h1 rfl rfl (by simp) (by simp) rfl rfl
    cases ha rfl
    cases g3
    cases g2 with
    | cons _ g4 => cases g4; exact ⟨_, rfl⟩

theorem Run.many_append {env : Env} {vk : VK} {sc : Scope} {cx cx2 : Cx} {ms ns ks : List Node}
    (h : Run env (many vk sc cx (ms ++ ns) cx2 ks)) : ∃ cx1 ms' ns', ks = ms' ++ ns' ∧
      ms'.length = ms.length ∧ Run env (many vk sc cx ms cx1 ms') ∧
      Run env (many vk sc cx1 ns cx2 ns') := by
  induction ms generalizing cx ks with
  | nil => exact ⟨cx, [], ks, rfl, rfl, .nil, h⟩
  | cons m ms ih =>
    cases h with
    | cons h1 h2 =>
      obtain ⟨cx1, ms', ns', rfl, hl, h3, h4⟩ := ih h2
      exact ⟨cx1, _ :: ms', ns', rfl, by simp [hl], .cons h1 h3, h4⟩

theorem childExpr_call {cx : Cx} {as : List Attr} {ks : List Node} :
    (childExpr cx (.mk .eCall as ks)).2 = .mk .eCall as ks := by
  rw [childExpr.eq_def]
  simp only
  split <;> rfl

/-- A visit of an arm. -/
theorem Run.arm {env : Env} {sc : Scope} {cx cx' : Cx} {p : String} {as : List Attr}
    {gs : List Node} {b n' : Node} (hf : sc.foreign = false) (hl : gs.length ≤ 1)
    (hr : Run env (one .visitor sc cx (.mk (.arm p) as (gs ++ [b])) cx' n')) :
    ∃ cxa cxb b1 as' gs' b', n' = .mk (.arm p) as' (gs' ++ [b']) ∧ gs'.length = gs.length ∧
      b1.kind = b.kind ∧ b1.rawAttrs = b.rawAttrs ∧
      (anyEmptyAttr as NESTED = false ∨ b.kind = .eCall → b1 = b) ∧ Run env (one .visitor sc cxa b1 cxb b') := by
  have hpart : Run env (Judg.part .visitor sc cx (.mk (.arm p) as (gs ++ [b])) cx' n') := by
    cases hr with
    | oneExpr h => cases h
    | oneArm _ h => exact h
    | oneLocal h => cases h
    | oneLocalChild h => cases h
    | oneBlock _ _ h => exact absurd rfl (h p)
    | oneInert h => cases h
  cases hpart with
  | @part _ _ _ _ cx2 ks c1 c2 c3 c4 c5 =>
    have hpre : ∃ as1 b1, (preSub .visitor sc cx (.mk (.arm p) as (gs ++ [b]))).2 =
        .mk (.arm p) as1 (gs ++ [b1]) ∧ b1.kind = b.kind ∧ b1.rawAttrs = b.rawAttrs ∧
        (anyEmptyAttr as NESTED = false ∨ b.kind = .eCall → b1 = b) := by
      simp only [preSub, hf, Bool.false_eq_true, if_false] at c2 ⊢
      cases hfr : Node.findRemoveAttr (.mk (.arm p) as (gs ++ [b])) NESTED with
      | none => exact ⟨_, _, rfl, rfl, rfl, fun _ => rfl⟩
      | some r =>
        obtain ⟨a, n1⟩ := r
        rw [hfr] at c2
        obtain ⟨_, _, _, l1, l2, _, hn1⟩ := Node.findRemoveAttr_some hfr
        have hform : anyEmptyAttr as NESTED = false → a.form ≠ .path := fun h =>
          findRemoveAttr_form (n := .mk (.arm p) as (gs ++ [b])) h hfr
        have key : ∀ cx0 : Cx, Clean (visitNested sc cx0 b a).1 →
            (visitNested sc cx0 b a).2.kind = b.kind ∧
            (visitNested sc cx0 b a).2.rawAttrs = b.rawAttrs ∧
            (anyEmptyAttr as NESTED = false ∨ b.kind = .eCall → (visitNested sc cx0 b a).2 = b) := by
          intro cx0 hc
          unfold visitNested at hc ⊢
          dsimp only at hc ⊢
          split at hc
          · rename_i hp
            rw [if_pos hp]
            exact ⟨(childExpr_top _ _).1, (childExpr_top _ _).2,
              fun h => h.elim (fun h => absurd (by simpa using hp) (hform h)) fun h => by
                obtain ⟨kb, asb, ksb⟩ := b
                cases h
                exact childExpr_call⟩
          · exact (clean_error hc).elim
        subst hn1
        simp only [Node.kind, Node.kids] at c2 ⊢
        rcases gs with _ | ⟨g, _ | ⟨_, _⟩⟩
        · obtain ⟨k1, k2, k3⟩ := key _ c2
          exact ⟨_, _, rfl, k1, k2, k3⟩
        · obtain ⟨k1, k2, k3⟩ := key _ c2
          exact ⟨_, _, rfl, k1, k2, k3⟩
        · simp at hl
    obtain ⟨as1, b1, he, k1, k2, k3⟩ := hpre
    rw [he] at c3 c5 ⊢
    simp only [Node.sub, Node.rebuild, Kind.isOpaque, Bool.false_eq_true, if_false] at c3 c5 ⊢
    obtain ⟨cx3, gs', ns', rfl, hl', _, h2⟩ := c3.many_append
    cases h2 with
    | cons h2 h3 =>
      cases h3
      unfold postSub at c5 ⊢
      dsimp only at c5 ⊢
      rw [findRemoveAttrs_pend hf c5]
      exact ⟨_, _, b1, _, gs', _, rfl, hl', k1, k2, k3, h2⟩

/-- A visit keeps the kinds of most expressions. -/
theorem Run.kind {env : Env} {sc : Scope} {semi : Bool} {cx cx' : Cx} {k : Kind} {as : List Attr}
    {ks : List Node} {n' : Node} (hf : sc.foreign = false) (hn : anyAttr as NAME = false)
    (h2 : k ≠ .eTry) (hk : k.isExpr = true) (hm : ∀ p t, k ≠ .eMacro p t)
    (hr : Run env (expr .visitor sc semi cx (.mk k as ks) cx' n')) : n'.kind = k := by
  have hN := nodeAnyAttr (k := k) (ks := ks) hk hn
  cases hr with
  | child _ _ h => rw [hN] at h; cases h
  | @plain _ _ _ _ cx2 ks' _ c1 c2 c3 c4 c5 c6 c7 =>
    have hen : enter .visitor sc (.mk k as ks) = sc.check k := by
      simp only [enter, hN, Node.kind]
      rfl
    have hfc : (sc.check k).foreign = false := by
      cases k <;> exact hf
    rw [hen] at c2 c5 c7 ⊢
    have h1 : (pre .visitor (sc.check k) cx (.mk k as ks)).2.kind = k := by
      unfold pre
      dsimp only
      rw [nestedStep_kind]
      rcases (visitMode_top (sc.check k) (seen cx (.mk k as ks)) (.mk k as ks)).2 with h | ⟨_, h, _⟩
      · exact h
      · exact absurd h h2
    generalize (pre .visitor (sc.check k) cx (.mk k as ks)).2 = x at *
    obtain ⟨k', as', ks2⟩ := x
    cases h1
    have hrb : ∃ ks3, (Node.mk k' as' ks2).rebuild ks' = .mk k' as' ks3 := by
      show ∃ ks3, (if k'.isOpaque then Node.mk k' as' ks2 else .mk k' as' ks') = _
      split <;> exact ⟨_, rfl⟩
    obtain ⟨ks3, hrb⟩ := hrb
    rw [hrb] at c7 ⊢
    unfold post at c7 ⊢
    simp only [hfc, Bool.not_false, Bool.true_or, if_true] at c7 ⊢
    rw [findRemoveAttrs_kind]
    unfold visitMarker
    dsimp only
    split
    · rename_i heq; cases heq; exact absurd rfl (hm _ _)
    · rfl

theorem settled_iff {e : Node} (h : settled e = true) : e.kind.isExpr = true ∧
    anyAttr e.rawAttrs NAME = false ∧ e.kind ≠ .eTry ∧ ∀ p t, e.kind ≠ .eMacro p t := by
  simp only [settled, Bool.and_eq_true, Bool.not_eq_true', inner_eq, isExprNode_eq] at h
  refine ⟨h.1.1, h.1.2, ?_, ?_⟩
  · intro hk; rw [hk] at h; simp at h
  · intro p t hk; rw [hk] at h; simp at h

theorem findRemoveAttr_kids {n n' : Node} {s : String} {a : Attr}
    (h : n.findRemoveAttr s = some (a, n')) : n'.kids = n.kids := by
  obtain ⟨_, _, _, l1, l2, _, h2⟩ := Node.findRemoveAttr_some h
  rw [h2]; rfl

theorem findRemoveAttrs_kids (sc : Scope) (cx : Cx) (n : Node) :
    (findRemoveAttrs sc cx n).2.kids = n.kids := by
  unfold findRemoveAttrs
  split
  · rfl
  · extract_lets r
    have h1 : r.2.kids = n.kids := by
      unfold r
      split
      · rename_i hf; exact findRemoveAttr_kids hf
      · rfl
    split
    · rename_i hf; exact (findRemoveAttr_kids hf).trans h1
    · exact h1

/-- A visit keeps the kinds of most callees. -/
theorem Run.callee {env : Env} {sc : Scope} {semi : Bool} {cx cx' : Cx} {as : List Attr}
    {f : Node} {args : List Node} {n' : Node} (hf : sc.foreign = false) (hn : anyAttr as NAME = false)
    (hs : settled f = true) (hr : Run env (expr .visitor sc semi cx (.mk .eCall as (f :: args)) cx' n')) :
    ∃ f' args', n'.kids = f' :: args' ∧ f'.kind = f.kind := by
  have hN := nodeAnyAttr (k := .eCall) (ks := f :: args) rfl hn
  cases hr with
  | child _ _ h => rw [hN] at h; cases h
  | @plain _ _ _ _ cx2 ks' _ c1 c2 c3 c4 c5 c6 c7 =>
    have hen : enter .visitor sc (.mk .eCall as (f :: args)) = sc.check .eCall := by
      simp only [enter, hN, Node.kind]
      rfl
    have hfc : (sc.check .eCall).foreign = false := hf
    rw [hen] at c2 c5 c7 ⊢
    have h1 : ∃ as1, (pre .visitor (sc.check .eCall) cx (.mk .eCall as (f :: args))).2 =
        .mk .eCall as1 (f :: args) := by
      unfold pre
      dsimp only
      have hm : (visitMode (sc.check .eCall) (seen cx (.mk .eCall as (f :: args)))
          (.mk .eCall as (f :: args))).2 = .mk .eCall as (f :: args) := by
        unfold visitMode
        split
        · unfold visitReturn; split <;> rfl
        · unfold visitTry; split <;> rfl
        · rfl
      rw [hm]
      unfold nestedStep
      rw [hfc]
      simp only [Bool.false_eq_true, if_false]
      split
      · rename_i a n1 hfr
        obtain ⟨_, _, _, l1, l2, _, hn1⟩ := Node.findRemoveAttr_some hfr
        subst hn1
        unfold visitNested
        dsimp only
        split
        · exact ⟨_, childExpr_call⟩
        · exact ⟨_, rfl⟩
      · exact ⟨_, rfl⟩
    obtain ⟨as1, h1⟩ := h1
    rw [h1] at c5 c7 ⊢
    simp only [Node.sub, Kind.isOpaque, Bool.false_eq_true, if_false, Node.rebuild] at c5 c7 ⊢
    cases c5 with
    | @cons _ _ _ _ _ f' _ _ args' g1 g2 =>
      obtain ⟨e1, e2, e3, e4⟩ := settled_iff hs
      obtain ⟨kf, asf, ksf⟩ := f
      have hk := (g1.toExpr e1).kind hfc e2 e3 e1 e4
      refine ⟨f', args', ?_, hk⟩
      unfold post
      simp only [hfc, Bool.not_false, Bool.true_or, if_true]
      rw [findRemoveAttrs_kids]
      rfl

theorem Run.head {env : Env} {sc : Scope} {semi : Bool} {cx cx' : Cx} {b b1 : Node} {n' : Node}
    (hf : sc.foreign = false) (hs : settled b = true) (k1 : b1.kind = b.kind)
    (k2 : b1.rawAttrs = b.rawAttrs) (k3 : b.kind = .eCall → b1 = b)
    (hr : Run env (expr .visitor sc semi cx b1 cx' n')) : SameHead b n' := by
  obtain ⟨e1, e2, e3, e4⟩ := settled_iff hs
  refine ⟨?_, ?_⟩
  · obtain ⟨kb, asb, ksb⟩ := b1
    cases k1
    cases k2
    exact hr.kind hf e2 e3 e1 e4
  · intro hk f args hks hsf
    rw [k3 hk] at hr
    obtain ⟨kb, asb, ksb⟩ := b
    cases hk
    cases hks
    exact hr.callee hf e2 hsf

theorem wrapArm_exempt {cx : Cx} {n : Node} (h : skipArm cx n = true) : wrapArm cx n = (cx, n) := by
  simp [wrapArm, h]

theorem wrapArm_wrap {cx : Cx} {p : String} {as : List Attr} {gs : List Node} {b : Node}
    (hl : gs.length ≤ 1) (h : skipArm cx (.mk (.arm p) as (gs ++ [b])) = false) :
    wrapArm cx (.mk (.arm p) as (gs ++ [b])) = ((cx.nextExpr b).1,
      .mk (.arm p) as (gs ++ [construct [] cx.ident ("__Variant" ++ toString cx.variants.length) b])) := by
  unfold wrapArm
  rw [h]
  rcases gs with _ | ⟨g, _ | ⟨_, _⟩⟩
  · rfl
  · rfl
  · simp at hl

/-- The arms of a `match`, wrapped and then visited. -/
theorem arms_of {env : Env} {sc : Scope} (hf : sc.foreign = false) :
    ∀ {arms : List Node} {cx cx' cx'' : Cx} {arms' : List Node}, cx.root = true →
    (∀ n ∈ arms, isArm n) → Run env (many .visitor sc cx' (mapA wrapArm cx arms).2 cx'' arms') →
    ArmsOf cx.ident cx.marker cx.variants.length arms arms' := by
  intro arms
  induction arms with
  | nil =>
    intro cx cx' cx'' arms' _ _ hr
    cases hr
    exact .nil
  | cons n arms ih =>
    intro cx cx' cx'' arms' hroot harms hr
    obtain ⟨p, as, gs, b, rfl, hl⟩ := harms n (by simp)
    have harms' : ∀ n ∈ arms, isArm n := fun n h => harms n (by simp [h])
    have hs := skipArm_exempt hroot (harms _ List.mem_cons_self)
    simp only [mapA] at hr
    cases hr with
    | cons h1 h2 =>
      cases h : skipArm cx (.mk (.arm p) as (gs ++ [b])) with
      | true =>
        rw [wrapArm_exempt h] at h1 h2
        obtain ⟨cxa, cxb, b1, as', gs', b', rfl, hl', k1, k2, k3, h4⟩ := h1.arm hf hl
        refine .exempt (by rw [← hs, h]) hl' ?_ (ih hroot harms' h2)
        intro hb
        exact (h4.toExpr (by rw [k1]; exact (settled_iff hb).1)).head hf hb k1 k2 fun h => k3 (.inr h)
      | false =>
        rw [wrapArm_wrap hl h] at h1 h2
        obtain ⟨cxa, cxb, b1, as', gs', b', rfl, hl', k1, k2, k3, h4⟩ := h1.arm hf hl
        have hne : anyEmptyAttr as NESTED = false := by
          rw [hs] at h
          simp only [exemptArm, nestedIn, Bool.or_eq_false_iff, marked_eq] at h
          exact h.1.2.1
        rw [k3 (.inl hne)] at h4
        obtain ⟨e', rfl⟩ := (h4.toExpr rfl).construct hf
        refine .wrapped (by rw [← hs, h]) hl' ?_
        have := ih (cx := (cx.nextExpr b).1) hroot harms' h2
        simpa [Cx.nextExpr, Cx.nextExprAttrs] using this

/-! ## The first analysis reaches the expression in result position -/

/-- What `childExpr` does to an expression whose result is `isBranching`. -/
def Reaches (cx : Cx) (e : Node) : Prop :=
  isBranching (resultOf e).kind = true → exempt cx.marker e = false → clearWay e = true →
    resultOf (childExpr cx e).2 = (childExpr cx (resultOf e)).2 ∧
    clearWay (childExpr cx e).2 = true ∧ exempt cx.marker (resultOf e) = false ∧
    (childExpr cx e).1 = (childExpr cx (resultOf e)).1

theorem childExpr_branching {cx : Cx} {e : Node} (h : isBranching e.kind = true) :
    resultOf e = e ∧ resultOf (childExpr cx e).2 = (childExpr cx e).2 ∧
    (clearWay e = true → clearWay (childExpr cx e).2 = true) := by
  have key : ∀ n : Node, isBranching n.kind = true → resultOf n = n ∧
      clearWay n = (!inner n.rawAttrs && !marked "nested" n.rawAttrs) := by
    rintro ⟨k, as, ks⟩ hk
    rw [resultOf.eq_def, clearWay.eq_def]
    cases k <;> first | (refine ⟨rfl, ?_⟩; simp [Node.rawAttrs]; done) | cases hk
  obtain ⟨h1, h2⟩ := childExpr_top cx e
  obtain ⟨k1, k2⟩ := key e h
  obtain ⟨k3, k4⟩ := key (childExpr cx e).2 (by rw [h1]; exact h)
  refine ⟨k1, k3, ?_⟩
  rw [k4, k2, h2]
  exact id

theorem lastForm {ks : List Node} (h : isBranching (lastOf ks).kind = true) :
    ∃ ms as e, ks = ms ++ [.mk (.sExpr false) as [e]] ∧ lastOf ks = resultOf e := by
  rcases List.eq_nil_or_concat ks with rfl | ⟨ms, n, rfl⟩
  · cases h
  · rw [List.concat_eq_append] at *
    rw [lastOf_append] at h ⊢
    unfold lastOf at h
    split at h
    · rename_i h; cases h
    · rename_i as e h'
      cases h'
      exact ⟨ms, as, e, rfl, rfl⟩
    · cases h
    · simp_all

theorem childLast_append (cx : Cx) (ms : List Node) (as : List Attr) (e : Node) :
    childLast cx (ms ++ [.mk (.sExpr false) as [e]]) =
      ((childExpr cx e).1, ms ++ [.mk (.sExpr false) as [(childExpr cx e).2]]) := by
  induction ms with
  | nil => simp only [List.nil_append, childLast]
  | cons m ms ih =>
    cases ms with
    | nil => simp only [List.nil_append, List.cons_append, childLast]
    | cons m' ms =>
      simp only [List.cons_append] at ih
      simp only [List.cons_append, childLast, ih]

theorem exemptLast_append (m : String) (ms : List Node) (as : List Attr) (e : Node) :
    exemptLast m (ms ++ [.mk (.sExpr false) as [e]]) = exempt m e := by
  induction ms with
  | nil => simp only [List.nil_append, exemptLast]
  | cons m ms ih =>
    cases ms with
    | nil => simp only [List.nil_append, List.cons_append, exemptLast]
    | cons m' ms =>
      simp only [List.cons_append] at ih
      simp only [List.cons_append, exemptLast, ih]

theorem reaches_last {cx : Cx} {ks : List Node} (hx : isBranching (lastOf ks).kind = true)
    (hu : exemptLast cx.marker ks = false) (hc : clearWayLast ks = true)
    (ih : ∀ m, sizeOf m < sizeOf ks → Reaches cx m) :
    lastOf (childLast cx ks).2 = (childExpr cx (lastOf ks)).2 ∧
    clearWayLast (childLast cx ks).2 = true ∧ exempt cx.marker (lastOf ks) = false ∧
    (childLast cx ks).1 = (childExpr cx (lastOf ks)).1 := by
  obtain ⟨ms, as, e, rfl, he⟩ := lastForm hx
  rw [he] at hx ⊢
  rw [exemptLast_append] at hu
  rw [clearWayLast_append] at hc
  simp only [clearWayLast] at hc
  rw [childLast_append, lastOf_append, clearWayLast_append]
  simp only [lastOf, clearWayLast]
  have hsz : sizeOf e < sizeOf (ms ++ [Node.mk (.sExpr false) as [e]]) := by
    have : ∀ (l : List Node) (n : Node), sizeOf n < sizeOf (l ++ [n]) := by
      intro l n
      induction l with
      | nil => simp; omega
      | cons _ _ ih => simp at ih ⊢; omega
    have := this ms (.mk (.sExpr false) as [e])
    simp at this ⊢
    omega
  exact ih e hsz hx hu hc

theorem reaches {cx : Cx} (hr : cx.root = true) (hv : cx.visitLast = true) :
    ∀ e, Reaches cx e := by
  apply Node.strongInd
  rintro ⟨k, as, ks⟩ ih hx hu hc
  have hu' : isUnreachable cx (.mk k as ks) = false := by rw [exempt_eq hr]; exact hu
  have hself : isBranching k = true → resultOf (childExpr cx (.mk k as ks)).2 =
      (childExpr cx (resultOf (.mk k as ks))).2 ∧
      clearWay (childExpr cx (.mk k as ks)).2 = true ∧
      exempt cx.marker (resultOf (.mk k as ks)) = false ∧
      (childExpr cx (.mk k as ks)).1 = (childExpr cx (resultOf (.mk k as ks))).1 := by
    intro hk
    obtain ⟨h1, h2, h3⟩ := childExpr_branching (cx := cx) (e := .mk k as ks) hk
    rw [h1]
    exact ⟨h2, h3 hc, hu, rfl⟩
  have hkid : resultOf (.mk k as ks) = .mk k as ks → isBranching k = true := by
    intro h; rw [h] at hx; exact hx
  cases k <;> try (refine hself (hkid ?_); rw [resultOf.eq_def]; done)
  case eBlock l =>
    rw [clearWay.eq_def] at hc
    simp only [Bool.and_eq_true] at hc
    rw [exempt.eq_def] at hu
    simp only [Bool.or_eq_false_iff] at hu
    simp only [resultOf] at hx ⊢
    obtain ⟨h1, h2, h3, h4⟩ := reaches_last hx hu.2 hc.2 fun m hm => ih m (by simp; omega)
    rw [childExpr.eq_def]
    simp only [hv, hu', Bool.not_true, Bool.or_self, Bool.false_eq_true, if_false]
    simp only [resultOf]
    rw [clearWay.eq_def]
    simp only [Bool.and_eq_true]
    exact ⟨h1, ⟨hc.1, h2⟩, h3, h4⟩
  case eUnsafe =>
    rw [clearWay.eq_def] at hc
    simp only [Bool.and_eq_true] at hc
    rw [exempt.eq_def] at hu
    simp only [Bool.or_eq_false_iff] at hu
    simp only [resultOf] at hx ⊢
    obtain ⟨h1, h2, h3, h4⟩ := reaches_last hx hu.2 hc.2 fun m hm => ih m (by simp; omega)
    rw [childExpr.eq_def]
    simp only [hv, hu', Bool.not_true, Bool.or_self, Bool.false_eq_true, if_false]
    simp only [resultOf]
    rw [clearWay.eq_def]
    simp only [Bool.and_eq_true]
    exact ⟨h1, ⟨hc.1, h2⟩, h3, h4⟩
  case eParen =>
    rcases ks with _ | ⟨e, _ | ⟨e2, es⟩⟩
    · exact hself (hkid (by rw [resultOf.eq_def]))
    · rw [clearWay.eq_def] at hc
      simp only [Bool.and_eq_true] at hc
      rw [exempt.eq_def] at hu
      simp only [Bool.or_eq_false_iff] at hu
      simp only [resultOf] at hx ⊢
      obtain ⟨h1, h2, h3, h4⟩ := ih e (by simp; omega) hx hu.2 hc.2
      rw [childExpr.eq_def]
      simp only [hv, hu', Bool.not_true, Bool.or_self, Bool.false_eq_true, if_false]
      simp only [resultOf]
      rw [clearWay.eq_def]
      simp only [Bool.and_eq_true]
      exact ⟨h1, ⟨hc.1, h2⟩, h3, h4⟩
    · exact hself (hkid (by rw [resultOf.eq_def]))
  case eMethodCall m =>
    rcases ks with _ | ⟨e, es⟩
    · exact hself (hkid (by rw [resultOf.eq_def]))
    · rw [clearWay.eq_def] at hc
      simp only [Bool.and_eq_true] at hc
      rw [exempt.eq_def] at hu
      simp only [Bool.or_eq_false_iff] at hu
      simp only [resultOf] at hx ⊢
      obtain ⟨h1, h2, h3, h4⟩ := ih e (by simp; omega) hx hu.2 hc.2
      rw [childExpr.eq_def]
      simp only [hv, hu', Bool.not_true, Bool.or_self, Bool.false_eq_true, if_false]
      simp only [resultOf]
      rw [clearWay.eq_def]
      simp only [Bool.and_eq_true]
      exact ⟨h1, ⟨hc.1, h2⟩, h3, h4⟩

end AutoEnums
