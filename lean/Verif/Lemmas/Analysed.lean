import Verif.Lemmas.Outside

/-! # The branch analysis and regions of inner attributes -/

namespace AutoEnums

open Spec

section
variable {en : Ident}

theorem BreaksIn_mk {k : Kind} {as : List Attr} {ks : List Node} {n' : Node} : BreaksIn en (.mk k as ks) n' ↔
    ∃ ks', BreaksInL en ks ks' ∧
      (n' = .mk k as ks' ∨ ∃ l vn, k = .eBreak l ∧ IsVariant vn ∧ n' = .mk k as (inCtor en vn ks')) := by
  rw [BreaksIn]

theorem BreaksInL_cons {n m : Node} {ns ns' : List Node} (h : BreaksIn en n m) (hs : BreaksInL en ns ns') :
    BreaksInL en (n :: ns) (m :: ns') := by rw [BreaksInL]; exact ⟨_, _, rfl, h, hs⟩

theorem BreaksInL_nil : BreaksInL en [] [] := by rw [BreaksInL]

theorem Analysed_mk {k : Kind} {as : List Attr} {ks : List Node} {n' : Node} : Analysed en (.mk k as ks) n' ↔
    ((innerAttr k as).isSome = true → BreaksIn en (.mk k as ks) n') ∧
    ∃ ks' vn, AnalysedL en ks ks' ∧ IsVariant vn ∧
      (n' = .mk k as ks' ∨ (∃ l, k = .eBreak l ∧ n' = .mk k as (inCtor en vn ks')) ∨
       (∃ p, k = .arm p ∧ n' = .mk k as (lastInCtor en vn ks')) ∨
       ((k = .block ∨ ∃ l, k = .eBlock l) ∧ n' = .mk k as (allInCtor en vn ks'))) := by
  rw [Analysed]

theorem AnalysedL_cons {n m : Node} {ns ns' : List Node} (h : Analysed en n m) (hs : AnalysedL en ns ns') :
    AnalysedL en (n :: ns) (m :: ns') := by rw [AnalysedL]; exact ⟨_, _, rfl, h, hs⟩

theorem AnalysedL_nil : AnalysedL en [] [] := by rw [AnalysedL]

theorem BreaksIn_refl : ∀ n, BreaksIn en n n := by
  intro n
  induction n using Node.ind with
  | h k as ks ih =>
    refine BreaksIn_mk.2 ⟨ks, ?_, .inl rfl⟩
    induction ks with
    | nil => exact BreaksInL_nil
    | cons n ns ihs => exact BreaksInL_cons (ih n (by simp)) (ihs fun c hc => ih c (by simp [hc]))

theorem BreaksIn_analysed : ∀ n n', BreaksIn en n n' → Analysed en n n' := by
  intro n
  induction n using Node.ind with
  | h k as ks ih =>
    intro n' h
    refine Analysed_mk.2 ⟨fun _ => h, ?_⟩
    obtain ⟨ks', h1, h2⟩ := BreaksIn_mk.1 h
    have : AnalysedL en ks ks' := by
      clear h2 h
      induction ks generalizing ks' with
      | nil => rw [BreaksInL] at h1; subst h1; exact AnalysedL_nil
      | cons n ns ihs =>
        rw [BreaksInL] at h1
        obtain ⟨m, ms, rfl, h1, h2⟩ := h1
        exact AnalysedL_cons (ih n (by simp) _ h1) (ihs (fun c hc => ih c (by simp [hc])) _ h2)
    rcases h2 with h2 | ⟨l, vn, hk, hv, h2⟩
    · exact ⟨ks', _, this, variant_is 0, .inl h2⟩
    · exact ⟨ks', vn, this, hv, .inr (.inl ⟨l, hk, h2⟩)⟩

theorem Analysed_refl (n : Node) : Analysed en n n := BreaksIn_analysed _ _ (BreaksIn_refl n)

theorem AnalysedL_refl : ∀ ns, AnalysedL en ns ns
  | [] => AnalysedL_nil
  | n :: ns => AnalysedL_cons (Analysed_refl n) (AnalysedL_refl ns)

end

theorem loopVisit_breaks (label : Option String) : ∀ (n : Node) (nested : Bool) (cx : Cx),
    BreaksIn cx.ident n (loopVisit label nested cx n).2 := by
  intro n
  induction n using Node.ind with
  | h k as ks ih =>
    intro nested cx
    have hl : ∀ (nested : Bool) (l : List Node) (cx : Cx), (∀ c ∈ l, c ∈ ks) →
        BreaksInL cx.ident l (loopVisitL label nested cx l).2 := by
      intro nested l
      induction l with
      | nil => intro cx _; exact BreaksInL_nil
      | cons a l ihl =>
        intro cx hm
        simp only [loopVisitL]
        have h2 := ihl (loopVisit label nested cx a).1 (fun c hc => hm c (by simp [hc]))
        rw [(loopVisit_kept label a nested cx).ident] at h2
        exact BreaksInL_cons (ih a (hm a (by simp)) nested cx) h2
    have hkeep : ∀ nested, BreaksIn cx.ident (.mk k as ks) (.mk k as (loopVisitL label nested cx ks).2) :=
      fun nested => BreaksIn_mk.2 ⟨_, hl nested ks cx (fun _ h => h), .inl rfl⟩
    unfold loopVisit
    split
    · exact BreaksIn_refl _
    · split
      · exact BreaksIn_refl _
      · exact BreaksIn_refl _
      · split
        · exact BreaksIn_refl _
        · exact hkeep true
      · split
        · exact BreaksIn_refl _
        · exact hkeep true
      · split
        · exact BreaksIn_refl _
        · exact hkeep true
      · split
        · split
          · exact BreaksIn_mk.2 ⟨[], BreaksInL_nil, .inr ⟨_, _, rfl, variant_is _, rfl⟩⟩
          · split
            · exact BreaksIn_refl _
            · rename_i l _ e rest _
              refine BreaksIn_mk.2 ⟨_ :: rest, BreaksInL_cons (ih e (by simp) nested
                { cx with variants := cx.variants ++ [variantIdent cx.variants.length] }) ?_,
                .inr ⟨_, _, rfl, variant_is _, rfl⟩⟩
              clear ih hl hkeep
              induction rest with
              | nil => exact BreaksInL_nil
              | cons a l ih => exact BreaksInL_cons (BreaksIn_refl _) ih
        · exact hkeep nested
      · exact hkeep nested

theorem loopVisitL_breaks (label : Option String) (nested : Bool) : ∀ (l : List Node) (cx : Cx),
    AnalysedL cx.ident l (loopVisitL label nested cx l).2
  | [], _ => AnalysedL_nil
  | a :: l, cx => by
    unfold loopVisitL
    have h2 := loopVisitL_breaks label nested l (loopVisit label nested cx a).1
    rw [(loopVisit_kept label a nested cx).ident] at h2
    exact AnalysedL_cons (BreaksIn_analysed _ _ (loopVisit_breaks label a nested cx)) h2

theorem wrapArm_analysed (cx : Cx) (n : Node) : Analysed cx.ident n (wrapArm cx n).2 := by
  unfold wrapArm
  split
  · exact Analysed_refl _
  · split
    · exact Analysed_mk.2 ⟨by simp [innerAttr, mayCarry, isExpression],
        [_], _, AnalysedL_refl _, variant_is _, .inr (.inr (.inl ⟨_, rfl, rfl⟩))⟩
    · exact Analysed_mk.2 ⟨by simp [innerAttr, mayCarry, isExpression],
        [_, _], _, AnalysedL_refl _, variant_is _, .inr (.inr (.inl ⟨_, rfl, rfl⟩))⟩
    · exact Analysed_refl _

theorem wrapBlock_analysed (cx : Cx) {k : Kind} {as : List Attr} (ss : List Node)
    (hk : k = .block ∨ (∃ l, k = .eBlock l) ∧ as = []) :
    Analysed cx.ident (.mk k as ss) (.mk k as (wrapBlock cx ss).2) := by
  unfold wrapBlock
  split
  · exact Analysed_refl _
  · refine Analysed_mk.2 ⟨?_, ss, _, AnalysedL_refl _, variant_is _,
      .inr (.inr (.inr ⟨hk.imp id (·.1), rfl⟩))⟩
    rcases hk with rfl | ⟨_, rfl⟩
    · simp [innerAttr, mayCarry, isExpression]
    · simp [innerAttr_nil]

theorem Analysed_kids {en : Ident} {k : Kind} {as : List Attr} {ks ks' : List Node}
    (h : innerAttr k as = none) (hs : AnalysedL en ks ks') : Analysed en (.mk k as ks) (.mk k as ks') :=
  Analysed_mk.2 ⟨by simp [h], ks', _, hs, variant_is 0, .inl rfl⟩

theorem visitIf_analysed : ∀ (n : Node) (cx : Cx), elseBare n = true → innerAttr n.kind n.rawAttrs = none →
    Analysed cx.ident n (visitIf cx n).2 := by
  intro n
  induction n using Node.strongInd with
  | h n ih =>
    intro cx hb hi
    unfold visitIf
    split
    · exact Analysed_kids hi (AnalysedL_cons (Analysed_refl _)
        (AnalysedL_cons (wrapBlock_analysed cx _ (.inl rfl)) AnalysedL_nil))
    · rename_i as c asb ss e
      have h1 := wrapBlock_analysed cx (k := .block) (as := asb) ss (.inl rfl)
      have hid : (wrapBlock cx ss).1.ident = cx.ident := by
        unfold wrapBlock; split <;> rfl
      have he : e.rawAttrs = [] := by
        simp only [elseBare, bareElse, Bool.and_eq_true, List.isEmpty_iff] at hb; exact hb.1
      have hb' : elseBare e = true := by
        simp only [elseBare, elseBareL, Bool.and_eq_true] at hb; exact hb.2.2.2.1
      have h3 : ∀ e', Analysed cx.ident e e' → Analysed cx.ident (.mk .eIf as [c, .mk .block asb ss, e])
          (.mk .eIf as [c, .mk .block asb (wrapBlock cx ss).2, e']) := fun e' h =>
        Analysed_kids hi (AnalysedL_cons (Analysed_refl _) (AnalysedL_cons h1 (AnalysedL_cons h AnalysedL_nil)))
      dsimp only
      split
      · rename_i l hl
        cases e with
        | mk ke ase es =>
          simp only [Node.kind, Node.rawAttrs] at hl he
          subst hl he
          refine h3 _ ?_
          rw [← hid]
          exact wrapBlock_analysed _ _ (.inr ⟨⟨_, rfl⟩, rfl⟩)
      · refine h3 _ ?_
        have := ih e (Node.sizeOf_kid (by simp)) (wrapBlock cx ss).1 hb' (by rw [he, innerAttr_nil])
        rwa [hid] at this
      · exact h3 _ (Analysed_refl _)
    · exact Analysed_refl _

theorem mapA_analysed : ∀ (ns : List Node) (cx : Cx), AnalysedL cx.ident ns (mapA wrapArm cx ns).2
  | [], _ => AnalysedL_nil
  | n :: ns, cx => by
    simp only [mapA]
    have := mapA_analysed ns (wrapArm cx n).1
    rw [(wrapArm_same cx n).ident] at this
    exact AnalysedL_cons (wrapArm_analysed cx n) this

theorem elseBareL_mem {ns : List Node} (h : elseBareL ns = true) {c : Node} (hc : c ∈ ns) : elseBare c = true := by
  induction ns with
  | nil => cases hc
  | cons n ns ih =>
    simp only [elseBareL, Bool.and_eq_true] at h
    rcases List.mem_cons.1 hc with rfl | hc
    · exact h.1
    · exact ih h.2 hc

theorem elseBare_kid {k : Kind} {as : List Attr} {ks : List Node} (h : elseBare (.mk k as ks) = true) {c : Node}
    (hc : c ∈ ks) : elseBare c = true := by
  rw [elseBare, Bool.and_eq_true] at h
  exact elseBareL_mem h.2 hc

/-- The last statement. -/
theorem childLast_analysed_of (ss : List Node) (cx : Cx)
    (ih : ∀ m, sizeOf m < sizeOf ss → ∀ cx, elseBare m = true → Analysed cx.ident m (childExpr cx m).2)
    (hb : ∀ c ∈ ss, elseBare c = true) : AnalysedL cx.ident ss (childLast cx ss).2 := by
  induction ss with
  | nil => exact AnalysedL_nil
  | cons s ss ihs =>
    unfold childLast
    split
    · contradiction
    · rename_i as' e heq
      obtain ⟨rfl, rfl⟩ := List.cons.inj heq
      refine AnalysedL_cons (Analysed_kids (by simp [innerAttr, mayCarry, isExpression])
        (AnalysedL_cons (ih e (by simp; omega) cx (elseBare_kid (hb _ (List.mem_singleton.2 rfl)) (List.mem_singleton.2 rfl))) AnalysedL_nil))
        AnalysedL_nil
    · rename_i heq
      obtain ⟨rfl, rfl⟩ := List.cons.inj heq
      exact AnalysedL_refl _
    · rename_i s t ss heq
      obtain ⟨rfl, rfl⟩ := List.cons.inj heq
      exact AnalysedL_cons (Analysed_refl _) (ihs (fun m hm => ih m (by simp at hm ⊢; omega))
        (fun c hc => hb c (by simp [hc])))

theorem innerAttr_none {k : Kind} {as : List Attr} {ks : List Node} (h : (Node.mk k as ks).anyAttr NAME = false)
    (hk : k.hasAttrs = true) : innerAttr k as = none := by
  unfold innerAttr
  split
  · rw [List.find?_eq_none]
    intro a ha hn
    rw [named_iff] at hn
    have : (Node.mk k as ks).anyAttr NAME = true := by
      simp only [Node.anyAttr, Node.attrs_eq hk, anyAttr, List.any_eq_true]
      exact ⟨a, ha, hn⟩
    rw [h] at this; cases this
  · rfl

theorem childExpr_analysed : ∀ (n : Node) (cx : Cx), elseBare n = true →
    Analysed cx.ident n (childExpr cx n).2 := by
  intro n
  induction n using Node.strongInd with
  | h n ih =>
    intro cx hb
    obtain ⟨k, as, ks⟩ := n
    unfold childExpr
    split
    · exact Analysed_refl _
    · rename_i hu
      have hn : k.hasAttrs = true → innerAttr k as = none := fun hk => by
        refine innerAttr_none (ks := ks) ?_ hk
        simp only [Bool.or_eq_true, not_or, Bool.not_eq_true] at hu
        have := hu.2
        unfold isUnreachable at this
        cases h : (Node.mk k as ks).anyAttr NAME with
        | false => rfl
        | true => simp_all [Node.anyAttr, Node.attrs_eq hk, Kind.hasAttrs]
      split
      · exact Analysed_kids (hn rfl) (childLast_analysed_of _ _
          (fun m hm => ih m (by simp at hm ⊢; omega)) (fun c hc => elseBare_kid hb hc))
      · exact Analysed_kids (hn rfl) (childLast_analysed_of _ _
          (fun m hm => ih m (by simp at hm ⊢; omega)) (fun c hc => elseBare_kid hb hc))
      · exact Analysed_kids (hn rfl) (AnalysedL_cons (Analysed_refl _) (mapA_analysed _ _))
      · exact visitIf_analysed _ _ hb (hn rfl)
      · exact Analysed_kids (hn rfl) (loopVisitL_breaks _ _ _ _)
      · exact Analysed_kids (hn rfl) (AnalysedL_cons
          (ih _ (Node.sizeOf_kid (by simp)) cx (elseBare_kid hb (by simp))) (AnalysedL_refl _))
      · exact Analysed_kids (hn rfl) (AnalysedL_cons
          (ih _ (Node.sizeOf_kid (by simp)) cx (elseBare_kid hb (by simp))) (AnalysedL_refl _))
      · exact Analysed_refl _

theorem childLast_analysed (ss : List Node) (cx : Cx) (hb : elseBareL ss = true) :
    AnalysedL cx.ident ss (childLast cx ss).2 :=
  childLast_analysed_of ss cx (fun m _ cx hm => childExpr_analysed m cx hm) (fun _ hc => elseBareL_mem hb hc)

end AutoEnums
