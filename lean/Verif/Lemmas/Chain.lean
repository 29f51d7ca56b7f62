import Verif.Spec.Chain
import Verif.Lemmas.Number

/-! # Lemmas: `if` chains in result position -/

namespace AutoEnums

open Spec Judg

theorem attrs_raw {n : Node} (h : isExprNode n = true) :
    n.attrs = if n.kind.hasAttrs then n.rawAttrs else [] := by
  obtain ⟨k, as, ks⟩ := n
  rw [Node.attrs.eq_def]
  cases k <;> first | rfl | cases h

theorem nestedInL_append (ms ns : List Node) :
    nestedInL (ms ++ ns) = (nestedInL ms || nestedInL ns) := by
  induction ms with
  | nil => rfl
  | cons m ms ih => simp only [List.cons_append, nestedInL, ih, Bool.or_assoc]

theorem skipBlock_exempt {cx : Cx} (hr : cx.root = true) {ss : List Node} (ht : tailOk ss = true) :
    skipBlock cx ss = exemptBlock cx.marker ss := by
  have hlast : ∀ l : List Node, isUnreachableLast cx l = exemptLast cx.marker l := by
    intro l
    have := exempt_eq hr (.mk (.eBlock none) [] l)
    unfold isUnreachable exempt at this
    simpa [marked, inner, anyAttr, anyEmptyAttr] using this
  unfold skipBlock exemptBlock
  unfold tailOk at ht
  rcases List.eq_nil_or_concat ss with rfl | ⟨ms, s, rfl⟩
  · simp [hlast]
  · rw [List.concat_eq_append] at *
    simp only [List.getLast?_append, List.getLast?_singleton, Option.some_or] at ht ⊢
    rcases Classical.em (∃ as e, s = .mk (.sExpr false) as [e]) with ⟨as, e, rfl⟩ | hno
    · dsimp only at ht ⊢
      rw [exempt_eq hr, nestedInL_eq]
      cases he : Node.anyEmptyAttr e NESTED with
      | false => simp
      | true =>
        rw [Bool.true_or, Bool.true_or]
        symm
        unfold Node.anyEmptyAttr at he
        rw [attrs_raw ht] at he
        obtain ⟨k, as', ks⟩ := e
        cases hk : k.hasAttrs with
        | false => simp [Node.kind, hk, AutoEnums.anyEmptyAttr] at he
        | true =>
          simp only [Node.kind, Node.rawAttrs, hk, if_true] at he
          cases hi : inner as' with
          | true => rw [exempt.eq_def]; simp [hk, hi]
          | false =>
            have hm : marked "nested" as' = true := by rw [marked_eq]; exact he
            have : nestedIn (.mk k as' ks) = true := by
              unfold nestedIn
              cases k <;> first | cases hk; done | cases ht; done | simp [carries, isExpression, hi, hm]
            have h2 : nestedIn (.mk (.sExpr false) as [.mk k as' ks]) = true := by
              generalize Node.mk k as' ks = x at this
              simp [nestedIn, nestedInL, carries, isExpression, hidesCode, this]
            rw [nestedInL_append]
            unfold nestedInL
            simp [h2]
    · split
      · rename_i heq; cases heq; exact absurd ⟨_, _, rfl⟩ hno
      · split
        · rename_i heq; cases heq; exact absurd ⟨_, _, rfl⟩ hno
        · exact hlast _

/-- A visit keeps the constructors that are there. -/
theorem Run.construct' {env : Env} {sc : Scope} {semi : Bool} {cx cx' : Cx} {en v : Ident}
    {e n' : Node} (hf : sc.foreign = false)
    (hr : Run env (expr .visitor sc semi cx (Spec.construct [] en v e) cx' n')) :
    ∃ sc1 cx1 cx2 e', sc1.foreign = false ∧ n' = Spec.construct [] en v e' ∧
      Run env (one .visitor sc1 cx1 e cx2 e') := by
  obtain ⟨sc1, cx2, as', ks', h1, h2, rfl, ha⟩ := hr.node hf rfl rfl (by simp) (by simp) rfl rfl
  cases ha rfl
  cases h2 with
  | cons g1 g2 =>
    obtain ⟨_, _, as', ks', _, g3, rfl, ha⟩ :=
      (g1.toExpr rfl).node h1 rfl rfl (by simp) (by simp) rfl rfl
    cases ha rfl
    cases g3
    cases g2 with
    | cons g5 g4 => cases g4; exact ⟨_, _, _, _, h1, rfl, g5⟩

theorem Run.many_length {env : Env} {vk : VK} {sc : Scope} {cx cx2 : Cx} {ms ks : List Node}
    (h : Run env (many vk sc cx ms cx2 ks)) : ks.length = ms.length := by
  rw [← List.append_nil ms] at h
  obtain ⟨_, ms', ns', rfl, hl, _, h2⟩ := h.many_append
  cases h2
  simpa using hl

theorem Run.stmt {env : Env} {vk : VK} {sc : Scope} {cx cx' : Cx} {as : List Attr} {e n' : Node}
    {semi : Bool}
    (h : Run env (one vk sc cx (.mk (.sExpr semi) as [e]) cx' n')) :
    ∃ e', n' = .mk (.sExpr semi) as [e'] ∧ Run env (expr vk sc semi cx e cx' e') := by
  cases h with
  | oneStmt h => exact ⟨_, rfl, h⟩
  | oneExpr h => cases h
  | oneArm h => cases h
  | oneLocal h => cases h
  | oneLocalChild h => cases h
  | oneBlock _ h => cases h
  | oneInert _ _ h => exact (h _ _ _ rfl).elim

theorem Run.block {env : Env} {vk : VK} {sc : Scope} {cx cx' : Cx} {as : List Attr} {ss : List Node}
    {n' : Node} (h : Run env (one vk sc cx (.mk .block as ss) cx' n')) :
    ∃ ss', n' = .mk .block as ss' ∧ Run env (many vk sc cx ss cx' ss') := by
  cases h with
  | oneExpr h => cases h
  | oneArm h => cases h
  | oneLocal h => cases h
  | oneLocalChild h => cases h
  | oneInert h => cases h
  | oneBlock _ _ _ h =>
    simp only [Node.sub, Kind.isOpaque, Bool.false_eq_true, if_false, Node.rebuild] at h ⊢
    exact ⟨_, rfl, h⟩

/-- The statements of a branch, perhaps wrapped, and then visited. -/
theorem block_of {env : Env} {sc : Scope} {cx cx1 cx2 : Cx} {ss ss' : List Node}
    (hf : sc.foreign = false) (hroot : cx.root = true) (ht : tailOk ss = true)
    (hr : Run env (many .visitor sc cx1 (AutoEnums.wrapBlock cx ss).2 cx2 ss')) :
    BlockOf cx.ident cx.marker cx.variants.length ss (AutoEnums.wrapBlock cx ss).1.variants.length ss' := by
  have hs := skipBlock_exempt hroot ht
  unfold AutoEnums.wrapBlock at hr ⊢
  cases h : skipBlock cx ss with
  | true =>
    rw [h, if_pos rfl] at hr
    rw [if_pos rfl]
    refine .exempt (by rw [← hs, h]) hr.many_length ?_
    rintro init as e rfl he
    obtain ⟨_, init', ns', rfl, _, _, h2⟩ := hr.many_append
    cases h2 with
    | cons h2 h3 =>
      cases h3
      obtain ⟨e', rfl, h4⟩ := h2.stmt
      exact ⟨init', as, e', rfl, h4.head hf he rfl rfl fun _ => rfl⟩
  | false =>
    rw [h, if_neg (by simp)] at hr
    rw [if_neg (by simp)]
    dsimp only at hr ⊢
    cases hr with
    | cons h1 h2 =>
      cases h2
      obtain ⟨e', rfl, h3⟩ := h1.stmt
      obtain ⟨sc1, cxa, cxb, e2, hf1, rfl, h4⟩ := Run.construct' (en := cx.ident)
        (v := "__Variant" ++ toString cx.variants.length) hf h3
      obtain ⟨sc', cx3, as', ks', _, h5, rfl, ha⟩ := (h4.toExpr rfl).node hf1 rfl rfl (by simp)
        (by simp) rfl rfl
      cases ha rfl
      have := BlockOf.wrapped (en := cx.ident) (i := cx.variants.length)
        (hs ▸ h : exemptBlock cx.marker ss = false) h5.many_length
      simpa [Cx.nextExpr, Cx.nextExprAttrs] using this

theorem wrapBlock_root (cx : Cx) (ss : List Node) : (AutoEnums.wrapBlock cx ss).1.root = cx.root ∧
    (AutoEnums.wrapBlock cx ss).1.ident = cx.ident ∧ (AutoEnums.wrapBlock cx ss).1.marker = cx.marker ∧
    (AutoEnums.wrapBlock cx ss).1.errs = cx.errs := by
  unfold AutoEnums.wrapBlock
  split <;> exact ⟨rfl, rfl, rfl, rfl⟩

/-- A chain, wrapped and then visited. -/
theorem chain_of {env : Env} : ∀ (n : Node) {sc : Scope} {semi : Bool} {cx cx1 cx2 : Cx} {n' : Node},
    sc.foreign = false → cx.root = true → isChain n = true → hasElse n = true →
    anyAttr n.rawAttrs NAME = false → anyEmptyAttr n.rawAttrs NESTED = false →
    Run env (expr .visitor sc semi cx1 (visitIf cx n).2 cx2 n') →
    ChainOf cx.ident cx.marker cx.variants.length n n' := by
  apply Node.strongInd
  intro n ih sc semi cx cx1 cx2 n' hf hroot hc he hn hne hr
  unfold isChain at hc
  split at hc
  · simp [hasElse] at he
  · rename_i as c asb ss e
    simp only [Bool.and_eq_true] at hc
    obtain ⟨w1, w2, w3, _⟩ := wrapBlock_root cx ss
    have hea : e.rawAttrs = [] := by simpa using hc.1.2
    have go : ∀ e1 : Node, Run env (expr .visitor sc semi cx1
        (.mk .eIf as [c, .mk .block asb (AutoEnums.wrapBlock cx ss).2, e1]) cx2 n') →
        ∃ sc' as' c' ss' e' cxa cxb, sc'.foreign = false ∧
          n' = .mk .eIf as' [c', .mk .block asb ss', e'] ∧
          BlockOf cx.ident cx.marker cx.variants.length ss
            (AutoEnums.wrapBlock cx ss).1.variants.length ss' ∧
          Run env (one .visitor sc' cxa e1 cxb e') := by
      intro e1 h
      obtain ⟨sc', cx3, as', ks', hf', h2, rfl, _⟩ := h.node hf hn hne (by simp) (by simp) rfl rfl
      cases h2 with
      | cons g1 g2 =>
        cases g2 with
        | cons g2 g3 =>
          cases g3 with
          | cons g3 g4 =>
            cases g4
            obtain ⟨ss', rfl, h5⟩ := g2.block
            exact ⟨sc', as', _, ss', _, _, _, hf', rfl, block_of hf' hroot hc.1.1 h5, g3⟩
    unfold visitIf at hr
    dsimp only at hr
    split at hr
    · rename_i l hk
      obtain ⟨k, ase, ts⟩ := e
      cases hk
      cases hea
      obtain ⟨sc', as', c', ss', e', cxa, cxb, hf', rfl, hb, h6⟩ := go _ hr
      obtain ⟨_, _, as2, ts', hf2, h7, rfl, ha⟩ := (h6.toExpr rfl).node hf' rfl rfl (by simp)
        (by simp) rfl rfl
      cases ha rfl
      have := block_of (cx := (AutoEnums.wrapBlock cx ss).1) hf2 (w1.trans hroot) hc.2 h7
      rw [w2, w3] at this
      exact .last hb this
    · rename_i hk
      obtain ⟨sc', as', c', ss', e', cxa, cxb, hf', rfl, hb, h6⟩ := go _ hr
      rw [hk] at hc
      have he' : hasElse e = true := by
        unfold hasElse at he
        rw [hk] at he
        exact he
      have h8 := h6.toExpr (by rw [(visitIf_top _ _).1, hk]; rfl)
      have := ih e (by simp; omega) (cx := (AutoEnums.wrapBlock cx ss).1) hf' (w1.trans hroot)
        hc.2 he' (by rw [hea]; rfl) (by rw [hea]; rfl) h8
      rw [w2, w3] at this
      exact .step hb this
    · rename_i h1 h2
      exfalso
      split at hc
      · rename_i heq; exact h1 _ heq
      · obtain ⟨k, as, ks⟩ := e
        have := hc.2
        unfold isChain at this
        split at this
        · rename_i heq; cases heq; exact h2 rfl
        · rename_i heq; cases heq; exact h2 rfl
        · cases this
  · cases hc

theorem visitIf_errs : ∀ (n : Node) (cx : Cx), isChain n = true →
    (visitIf cx n).1.errs = cx.errs ++ if hasElse n then [] else [.missingElse] := by
  apply Node.strongInd
  intro n ih cx hc
  unfold isChain at hc
  split at hc
  · rename_i as c asb ss
    have := (wrapBlock_root cx ss).2.2.2
    simp [visitIf, hasElse, Cx.error, this]
  · rename_i as c asb ss e
    have h1 := (wrapBlock_root cx ss).2.2.2
    simp only [Bool.and_eq_true] at hc
    unfold visitIf hasElse
    dsimp only
    split
    · rename_i l hk
      rw [(wrapBlock_root _ _).2.2.2, h1, hk]
      simp
    · rename_i hk
      rw [hk] at hc ⊢
      dsimp only at hc ⊢
      rw [ih e (by simp; omega) _ hc.2, h1]
    · rename_i h1 h2
      exfalso
      split at hc
      · rename_i heq; exact h1 _ heq
      · obtain ⟨k, as, ks⟩ := e
        have := hc.2
        unfold isChain at this
        split at this
        · rename_i heq; cases heq; exact h2 rfl
        · rename_i heq; cases heq; exact h2 rfl
        · cases this
  · cases hc

theorem isChain_kind {n : Node} (h : isChain n = true) : n.kind = .eIf := by
  unfold isChain at h
  split at h <;> first | rfl | cases h

end AutoEnums
