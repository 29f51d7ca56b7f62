import Verif.Spec.Tidy
import Verif.Lemmas.Inner

/-! # Helper attributes do not survive -/

namespace AutoEnums

open Spec Judg

/-- Between the visit by an outer attribute and the expansion of the inner one. -/
structure Mid (k : Kind) (as : List Attr) (kids : List Kind) : Prop where
  once : carries k = true → ∀ s ∈ ["auto_enum", "nested", "never"], countNamed s as ≤ 1
  inner : carries k = true → ∀ a ∈ as, named "auto_enum" a = false
  closure : ∀ i, k = .eClosure i → ∀ a ∈ as, named "nested" a = false ∧ named "never" a = false
  stmt : StmtOk k kids

section
variable {P Q : Kind → List Attr → List Kind → Prop}

theorem throughoutL_iff {ks : List Node} : ThroughoutL P ks ↔ ∀ c ∈ ks, Throughout P c := by
  induction ks with
  | nil => simp [ThroughoutL]
  | cons n ns ih => simp [ThroughoutL, ih]

theorem allBareL_iff {ks : List Node} : AllBareL ks ↔ ∀ c ∈ ks, AllBare c := by
  induction ks with
  | nil => simp [AllBareL]
  | cons n ns ih => simp [AllBareL, ih]

theorem throughout_mk {k : Kind} {as : List Attr} {ks : List Node} : Throughout P (.mk k as ks) ↔
    P k as (ks.map (·.kind)) ∧ (macroCall k = true → AllBareL ks) ∧
      (hidesCode k = false → ∀ c ∈ ks, Throughout P c) := by
  rw [Throughout, throughoutL_iff]

theorem Throughout.open {k : Kind} {as : List Attr} {ks : List Node} (hk : k.isOpaque = false) :
    Throughout P (.mk k as ks) ↔ P k as (ks.map (·.kind)) ∧ ∀ c ∈ ks, Throughout P c := by
  rw [throughout_mk, hidesCode_eq]
  constructor
  · exact fun h => ⟨h.1, h.2.2 hk⟩
  · refine fun h => ⟨h.1, fun hm => ?_, fun _ => h.2⟩
    cases k <;> first | (simp [macroCall] at hm; done) | (simp [Kind.isOpaque] at hk; done)

theorem Throughout.imp (h : ∀ k as i, P k as i → Q k as i) : ∀ n, Throughout P n → Throughout Q n := by
  refine Node.ind (P := fun n => Throughout P n → Throughout Q n) ?_
  intro k as ks ih hn
  rw [throughout_mk] at hn ⊢
  exact ⟨h _ _ _ hn.1, hn.2.1, fun hk c hc => ih c hc (hn.2.2 hk c hc)⟩

theorem Spec.AllBare.throughout (h : ∀ k as i, Bare k as i → P k as i) : ∀ n, AllBare n → Throughout P n := by
  refine Node.ind (P := fun n => AllBare n → Throughout P n) ?_
  intro k as ks ih hn
  rw [AllBare] at hn
  rw [throughout_mk]
  exact ⟨h _ _ _ hn.1, fun _ => hn.2, fun _ c hc => ih c hc (allBareL_iff.mp hn.2 c hc)⟩

/-- `P` is fine with new nodes. -/
structure Lax (P : Kind → List Attr → List Kind → Prop) : Prop where
  nil : ∀ k i, (∀ b, k ≠ .sExpr b) → P k [] i
  tail : ∀ b, P (.sExpr b) [] [.eCall]
  semi : P (.sExpr true) [] [.eReturn]
  count : ∀ k as i j, (∀ b, k ≠ .sExpr b) → (∀ p, k ≠ .sLocal p) → P k as i → P k as j
  ofTry : ∀ as i j, P .eTry as i → P .eMatch as j
  ofMacro : ∀ p t as i j, P (.eMacro p t) as i → P .eCall as j
  bare : ∀ k as i, Bare k as i → P k as i

theorem helper_false {a : Attr} (h : helper a = false) :
    named "auto_enum" a = false ∧ named "nested" a = false ∧ named "never" a = false := by
  simpa [helper, Bool.or_eq_false_iff, and_assoc] using h

theorem countNamed_zero {s : String} {as : List Attr} (h : ∀ a ∈ as, named s a = false) :
    countNamed s as = 0 := by
  unfold countNamed
  rw [List.length_eq_zero_iff, List.filter_eq_nil_iff]
  intro a ha; simp [h a ha]

theorem Spec.Bare.mid {k : Kind} {as : List Attr} {i : List Kind} (h : Bare k as i) : Mid k as i := by
  refine ⟨fun hc s hs => ?_, fun hc a ha => (helper_false (h.none hc a ha)).1, ?_, h.stmt⟩
  · rw [countNamed_zero]
    · exact Nat.zero_le _
    · intro a ha
      have := helper_false (h.none hc a ha)
      simp only [List.mem_cons, List.not_mem_nil, or_false] at hs
      rcases hs with rfl | rfl | rfl
      · exact this.1
      · exact this.2.1
      · exact this.2.2
  · intro i hi a ha
    subst hi
    exact (helper_false (h.none rfl a ha)).2

theorem Mid.neat {k : Kind} {as : List Attr} {i : List Kind} (h : Mid k as i) : Neat k as i :=
  ⟨h.once, fun hc a ha hn => absurd hn (by simp [h.inner hc a ha]), h.closure, h.stmt⟩

theorem bare_lax : Lax Bare := by
  refine ⟨fun k i h => ⟨by simp, fun b hb => absurd hb (h b)⟩, fun _ => ⟨by simp, fun _ _ => ⟨_, rfl, .inl rfl⟩⟩, ⟨by simp, fun _ _ => ⟨_, rfl, .inl rfl⟩⟩,
    fun k as i j h _ hp => ⟨hp.1, fun b hb => absurd hb (h b)⟩, fun as i j h => ⟨fun _ => h.1 rfl, by simp [StmtOk]⟩,
    fun _ _ as i j h => ⟨fun _ => h.1 rfl, by simp [StmtOk]⟩, fun _ _ _ h => h⟩

theorem mid_lax : Lax Mid := by
  refine ⟨fun k i h => ⟨by simp [countNamed], by simp, by simp, fun b hb => absurd hb (h b)⟩,
    fun _ => ⟨by simp [countNamed], by simp, by simp, fun _ _ => ⟨_, rfl, .inl rfl⟩⟩,
    ⟨by simp [countNamed], by simp, by simp, fun _ _ => ⟨_, rfl, .inl rfl⟩⟩,
    fun k as i j h _ hp => ⟨hp.1, hp.2, hp.3, fun b hb => absurd hb (h b)⟩,
    fun as i j h => ⟨fun _ => h.1 rfl, fun _ => h.2 rfl, by simp, by simp [StmtOk]⟩,
    fun _ _ as i j h => ⟨fun _ => h.1 rfl, fun _ => h.2 rfl, by simp, by simp [StmtOk]⟩, fun _ _ _ h => h.mid⟩

theorem neat_lax : Lax Neat := by
  refine ⟨fun k i h => ⟨by simp [countNamed], by simp, by simp, fun b hb => absurd hb (h b)⟩,
    fun _ => ⟨by simp [countNamed], by simp, by simp, fun _ _ => ⟨_, rfl, .inl rfl⟩⟩,
    ⟨by simp [countNamed], by simp, by simp, fun _ _ => ⟨_, rfl, .inl rfl⟩⟩,
    fun k as i j h h' hp => ⟨hp.1, fun hc a ha hn => ⟨(hp.2 hc a ha hn).1, (hp.2 hc a ha hn).2,
      (hp.2 hc a ha hn).3, fun p he => absurd he (h' p)⟩, hp.3, fun b hb => absurd hb (h b)⟩,
    fun as i j h => ⟨fun _ => h.1 rfl, fun _ a ha hn => ⟨(h.2 rfl a ha hn).1, by simp, by simp, by simp⟩,
      by simp, by simp [StmtOk]⟩,
    fun _ _ as i j h => ⟨fun _ => h.1 rfl, fun _ a ha hn => ⟨(h.2 rfl a ha hn).1, by simp, by simp, by simp⟩,
      by simp, by simp [StmtOk]⟩, fun _ _ _ h => h.mid.neat⟩

theorem throughout_call (hP : Lax P) {as : List Attr} {p : Path} {e : Node} (ha : P .eCall as [.ePath false p, e.kind])
    (h : Throughout P e) : Throughout P (exprCall as p e) := by
  unfold exprCall pathE
  rw [Throughout.open rfl]
  refine ⟨ha, ?_⟩
  intro c hc
  simp only [List.mem_cons, List.not_mem_nil, or_false] at hc
  rcases hc with rfl | rfl
  · rw [Throughout.open rfl]
    exact ⟨hP.nil _ _ (by simp), by simp⟩
  · exact h

theorem throughout_unit (hP : Lax P) : Throughout P unitE := by
  unfold unitE
  rw [Throughout.open rfl]
  exact ⟨hP.nil _ _ (by simp), by simp⟩

theorem Wr.throughout (hP : Lax P) {n n' : Node} (h : Wr n n') : Throughout P n → Throughout P n' := by
  induction h with
  | refl => exact id
  | trans _ _ h1 h2 => exact fun h => h2 (h1 h)
  | kid hk hw ih =>
    intro h
    rw [Throughout.open hk] at h ⊢
    refine ⟨by simpa [hw.kind] using h.1, fun c hc => ?_⟩
    simp only [List.mem_append, List.mem_cons] at hc
    rcases hc with hc | rfl | hc
    · exact h.2 c (by simp [hc])
    · exact ih (h.2 _ (by simp))
    · exact h.2 c (by simp [hc])
  | @val k as e rest p hk =>
    intro h
    have ho : k.isOpaque = false := by rcases hk with rfl | ⟨l, rfl⟩ <;> rfl
    rw [Throughout.open ho] at h ⊢
    refine ⟨hP.count _ _ _ _ (by rcases hk with rfl | ⟨l, rfl⟩ <;> simp)
      (by rcases hk with rfl | ⟨l, rfl⟩ <;> simp) h.1, fun c hc => ?_⟩
    simp only [List.mem_cons] at hc
    rcases hc with rfl | hc
    · exact throughout_call hP (hP.nil _ _ (by simp)) (h.2 _ (by simp))
    · exact h.2 c (by simp [hc])
  | arm hg =>
    intro h
    rw [Throughout.open rfl] at h ⊢
    refine ⟨hP.count _ _ _ _ (by simp) (by simp) h.1, fun c hc => ?_⟩
    simp only [List.mem_append, List.mem_singleton] at hc
    rcases hc with hc | rfl
    · exact h.2 c (by simp [hc])
    · exact throughout_call hP (hP.nil _ _ (by simp)) (h.2 _ (by simp))
  | @block k as ss p hk =>
    intro h
    have ho : k.isOpaque = false := by rcases hk with rfl | ⟨l, rfl⟩ <;> rfl
    rw [Throughout.open ho] at h ⊢
    refine ⟨hP.count _ _ _ _ (by rcases hk with rfl | ⟨l, rfl⟩ <;> simp)
      (by rcases hk with rfl | ⟨l, rfl⟩ <;> simp) h.1, fun c hc => ?_⟩
    simp only [List.mem_singleton] at hc
    subst hc
    unfold tailS
    rw [Throughout.open rfl]
    refine ⟨hP.tail _, fun c hc => ?_⟩
    simp only [List.mem_singleton] at hc
    subst hc
    refine throughout_call hP (hP.nil _ _ (by simp)) ?_
    unfold exprBlock
    rw [Throughout.open rfl]
    exact ⟨hP.nil _ _ (by simp), h.2⟩
  | @fill k as p hk =>
    intro h
    have ho : k.isOpaque = false := by rcases hk with rfl | ⟨l, rfl⟩ <;> rfl
    rw [Throughout.open ho] at h ⊢
    refine ⟨hP.count _ _ _ _ (by rcases hk with rfl | ⟨l, rfl⟩ <;> simp)
      (by rcases hk with rfl | ⟨l, rfl⟩ <;> simp) h.1, fun c hc => ?_⟩
    simp only [List.mem_singleton] at hc
    subst hc
    exact throughout_call hP (hP.nil _ _ (by simp)) (throughout_unit hP)

theorem visitMode_throughout (hP : Lax P) (sc : Scope) (cx : Cx) (n : Node) (h : Throughout P n) :
    Throughout P (visitMode sc cx n).2 := by
  unfold visitMode
  split
  · unfold visitReturn
    split
    · split
      · rename_i as ks _
        cases ks with
        | nil =>
          simp only [Cx.replaceBoxed, Cx.nextExpr, Cx.nextExprAttrs]
          exact (Wr.fill (.inl rfl)).throughout hP h
        | cons e rest =>
          simp only [Cx.replaceBoxed]
          split
          · exact h
          · exact (Wr.val (.inl rfl)).throughout hP h
      · exact h
    · exact h
  · unfold visitTry
    split
    · split
      · split
        · exact h
        · rename_i as e _ _
          have nilOk : ∀ k ks, k.isOpaque = false → (∀ b, k ≠ .sExpr b) → (∀ c ∈ ks, Throughout P c) →
              Throughout P (.mk k [] ks) := fun k ks hk hs hc => by
            rw [Throughout.open hk]; exact ⟨hP.nil _ _ hs, hc⟩
          rw [Throughout.open rfl] at h ⊢
          refine ⟨hP.ofTry _ _ _ h.1, fun c hc => ?_⟩
          simp only [List.mem_cons, tryArms, List.not_mem_nil, or_false] at hc
          rcases hc with rfl | rfl | rfl
          · exact h.2 _ (by simp)
          · refine nilOk _ _ rfl (by simp) fun c hc => ?_
            simp only [List.mem_singleton] at hc
            subst hc
            exact nilOk _ _ rfl (by simp) (by simp)
          · refine nilOk _ _ rfl (by simp) fun c hc => ?_
            simp only [List.mem_singleton] at hc
            subst hc
            refine nilOk _ _ rfl (by simp) fun c hc => ?_
            simp only [List.mem_singleton] at hc
            subst hc
            unfold semiS
            rw [Throughout.open rfl]
            refine ⟨hP.semi, fun c hc => ?_⟩
            simp only [List.mem_singleton] at hc
            subst hc
            refine nilOk _ _ rfl (by simp) fun c hc => ?_
            simp only [List.mem_singleton] at hc
            subst hc
            refine nilOk _ _ rfl (by simp) fun c hc => ?_
            simp only [List.mem_cons, List.not_mem_nil, or_false] at hc
            rcases hc with rfl | rfl
            · exact nilOk _ _ rfl (by simp) (by simp)
            · exact throughout_call hP (hP.nil _ _ (by simp)) (nilOk _ _ rfl (by simp) (by simp))
      · exact h
    · exact h
  · exact h

theorem visitNested_throughout (hP : Lax P) (sc : Scope) (cx : Cx) (n : Node) (a : Attr)
    (h : Throughout P n) : Throughout P (visitNested sc cx n a).2 := by
  unfold visitNested
  dsimp only
  split
  · exact (childExpr_Wr _ _).throughout hP h
  · exact h

/-- What a marker becomes. -/
theorem visitMarker_cases (sc : Scope) (cx : Cx) (n : Node) (hc : Clean (visitMarker sc cx n).1) :
    (visitMarker sc cx n).2 = n ∨ ∃ p t as e q, n = .mk (.eMacro p t) as [e] ∧
      (visitMarker sc cx n).2 = exprCall as q e := by
  unfold visitMarker at hc ⊢
  dsimp only at hc ⊢
  split
  · rename_i p t as ks
    dsimp only at hc
    split
    · rename_i hm
      rw [if_pos hm] at hc
      split
      · rename_i e
        dsimp only at hc
        split
        · rename_i he
          rw [if_pos he] at hc
          have := hc.hasError
          rw [he] at this; cases this
        · exact .inr ⟨_, _, _, _, _, rfl, rfl⟩
      · rename_i hne
        split at hc
        · exact absurd rfl (hne _)
        · exact absurd hc Keeps.not_error
    · exact .inl rfl
  · exact .inl rfl

theorem visitMarker_throughout (hP : Lax P) (sc : Scope) (cx : Cx) (n : Node)
    (hc : Clean (visitMarker sc cx n).1) (h : Throughout P n) :
    Throughout P (visitMarker sc cx n).2 := by
  rcases visitMarker_cases sc cx n hc with h1 | ⟨p, t, as, e, q, rfl, h1⟩
  · rw [h1]; exact h
  · rw [h1]
    rw [throughout_mk] at h
    have := allBareL_iff.mp (h.2.1 rfl) e (by simp)
    exact throughout_call hP (hP.ofMacro _ _ _ _ _ h.1) (this.throughout hP.bare)

end

/-! ## Attribute lists -/

theorem countNamed_sublist {s : String} {l l' : List Attr} (h : l.Sublist l') :
    countNamed s l ≤ countNamed s l' := (h.filter _).length_le

theorem removed_sublist (l1 l2 : List Attr) (a : Attr) : (l1 ++ l2).Sublist (l1 ++ a :: l2) :=
  (List.Sublist.refl l1).append (List.sublist_cons_self a l2)

theorem none_left {l1 l2 : List Attr} {a : Attr} {s : String} (ha : named s a = true)
    (h : countNamed s (l1 ++ a :: l2) ≤ 1) : ∀ b ∈ l1 ++ l2, named s b = false := by
  unfold countNamed at h
  rw [List.filter_append, List.filter_cons, if_pos ha, List.length_append, List.length_cons] at h
  have h1 : (l1.filter (named s)).length = 0 := by omega
  have h2 : (l2.filter (named s)).length = 0 := by omega
  rw [List.length_eq_zero_iff, List.filter_eq_nil_iff] at h1 h2
  intro b hb
  rw [List.mem_append] at hb
  rcases hb with hb | hb
  · simpa using h1 b hb
  · simpa using h2 b hb

/-- Removing an attribute that occurs at most once. -/
theorem findRemoveAttr_gone {n n' : Node} {s : String} {a : Attr} (h : n.findRemoveAttr s = some (a, n'))
    (hc : countNamed s n.rawAttrs ≤ 1) : ∀ b ∈ n'.rawAttrs, named s b = false := by
  obtain ⟨_, h1, _, l1, l2, h2, h3⟩ := Node.findRemoveAttr_some h
  subst h3
  rw [h2] at hc
  exact none_left (by rw [named_iff]; exact h1) hc

theorem findRemoveAttr_sub {n n' : Node} {s : String} {a : Attr} (h : n.findRemoveAttr s = some (a, n')) :
    n'.rawAttrs.Sublist n.rawAttrs ∧ n'.kind = n.kind ∧ n'.kids = n.kids := by
  obtain ⟨_, h1, _, l1, l2, h2, h3⟩ := Node.findRemoveAttr_some h
  subst h3
  rw [h2]
  exact ⟨removed_sublist _ _ _, rfl, rfl⟩

theorem findRemoveAttr_absent {n : Node} {s : String} (h : n.findRemoveAttr s = none)
    (hk : n.kind.hasAttrs = true) : ∀ b ∈ n.rawAttrs, named s b = false := by
  cases n with
  | mk k as ks =>
    simp only [Node.kind] at hk
    simp only [Node.findRemoveAttr, hk, if_true] at h
    split at h
    · cases h
    · rename_i hf
      rw [findRemove_none, List.any_eq_false] at hf
      intro b hb
      rw [named_iff]
      simpa using hf b hb

theorem carries_hasAttrs {k : Kind} (h : carries k = true) : k.hasAttrs = true := by
  cases k <;> first | rfl | (simp [carries, isExpression] at h)

theorem isExpr_carries {k : Kind} (h : k.isExpr = true) (ha : k.hasAttrs = true) : carries k = true := by
  cases k <;> first | rfl | (simp [Kind.isExpr, Kind.hasAttrs] at h ha)

/-- What is left after `find_remove_attrs`. -/
theorem findRemoveAttrs_form (sc : Scope) (cx : Cx) (k : Kind) (as : List Attr) (ks : List Node)
    (hs : sc.foreign = false) : ∃ as', (findRemoveAttrs sc cx (.mk k as ks)).2 = .mk k as' ks ∧
      as'.Sublist as ∧ (k.hasAttrs = true → countNamed "never" as ≤ 1 → ∀ a ∈ as', named "never" a = false) := by
  unfold findRemoveAttrs
  rw [if_neg (by simp [hs])]
  extract_lets r
  have step1 : ∃ as1, r.2 = .mk k as1 ks ∧ as1.Sublist as ∧
      (k.hasAttrs = true → countNamed "never" as ≤ 1 → ∀ a ∈ as1, named "never" a = false) := by
    unfold r
    split
    · rename_i a n h
      obtain ⟨h1, h2, h3⟩ := findRemoveAttr_sub h
      cases n with
      | mk k1 as1 ks1 =>
        simp only [Node.kind, Node.kids, Node.rawAttrs] at h1 h2 h3
        subst h2 h3
        exact ⟨as1, rfl, h1, fun _ hc => findRemoveAttr_gone h hc⟩
    · rename_i h
      exact ⟨as, rfl, .refl _, fun hk _ => findRemoveAttr_absent h hk⟩
  obtain ⟨as1, h1, h2, h3⟩ := step1
  rw [h1]
  split
  · rename_i a n h
    obtain ⟨h4, h5, h6⟩ := findRemoveAttr_sub h
    cases n with
    | mk k2 as2 ks2 =>
      simp only [Node.kind, Node.kids, Node.rawAttrs] at h4 h5 h6
      subst h5 h6
      exact ⟨as2, rfl, h4.trans h2, fun hk hc a ha => h3 hk hc a (h4.subset ha)⟩
  · exact ⟨as1, h1, h2, h3⟩

/-- A node that is bare but for one `#[never]`. -/
structure Nearly (k : Kind) (as : List Attr) (kids : List Kind) : Prop where
  none : carries k = true → ∀ a ∈ as, named "auto_enum" a = false ∧ named "nested" a = false
  once : carries k = true → countNamed "never" as ≤ 1
  stmt : StmtOk k kids

theorem findRemoveAttrs_bare {sc : Scope} {cx : Cx} {k : Kind} {as : List Attr} {ks : List Node}
    (hs : sc.foreign = false) (h1 : Nearly k as (ks.map (·.kind)))
    (h2 : macroCall k = true → AllBareL ks) (h3 : k.isOpaque = false → ∀ c ∈ ks, Throughout Bare c) :
    Throughout Bare (findRemoveAttrs sc cx (.mk k as ks)).2 := by
  obtain ⟨as', e, hsub, hn⟩ := findRemoveAttrs_form sc cx k as ks hs
  rw [e, throughout_mk]
  refine ⟨⟨fun hc a ha => ?_, h1.stmt⟩, h2, by rw [hidesCode_eq]; exact h3⟩
  have := h1.none hc a (hsub.subset ha)
  simp [helper, this.1, this.2, hn (carries_hasAttrs hc) (h1.once hc) a ha]

theorem post_bare {sc : Scope} {cx : Cx} {k : Kind} {as : List Attr} {ks : List Node}
    (hs : sc.foreign = false) (h1 : Nearly k as (ks.map (·.kind)))
    (h2 : macroCall k = true → AllBareL ks) (h3 : k.isOpaque = false → ∀ c ∈ ks, Throughout Bare c)
    (hc : Clean (post .visitor sc cx (.mk k as ks)).1) :
    Throughout Bare (post .visitor sc cx (.mk k as ks)).2 := by
  unfold post at hc ⊢
  dsimp only at hc ⊢
  rw [hs] at hc ⊢
  simp only [Bool.not_false, Bool.true_or, if_true] at hc ⊢
  have hc1 := findRemoveAttrs_keeps _ _ _ hc
  rcases visitMarker_cases sc cx _ hc1 with e | ⟨p, t, as', e', q, e1, e2⟩
  · rw [e]; exact findRemoveAttrs_bare hs h1 h2 h3
  · cases e1
    rw [e2]
    unfold exprCall
    refine findRemoveAttrs_bare hs ⟨fun _ => h1.none rfl, fun _ => h1.once rfl, by simp [StmtOk]⟩
      (by simp [macroCall]) ?_
    intro _ c hc
    simp only [List.mem_cons, List.not_mem_nil, or_false] at hc
    rcases hc with rfl | rfl
    · unfold pathE
      rw [Throughout.open rfl]
      exact ⟨bare_lax.nil _ _ (by simp), by simp⟩
    · exact (allBareL_iff.mp (h2 rfl) _ (by simp)).throughout bare_lax.bare

theorem post_foreign {P : Kind → List Attr → List Kind → Prop} (hP : Lax P) {sc : Scope} {cx : Cx} {n : Node}
    (hs : sc.foreign = true) (h : Throughout P n) (hc : Clean (post .visitor sc cx n).1) :
    Throughout P (post .visitor sc cx n).2 := by
  unfold post at hc ⊢
  dsimp only at hc ⊢
  split
  · rename_i hm
    rw [if_pos hm] at hc
    have hc1 := findRemoveAttrs_keeps _ _ _ hc
    have : ∀ m, (findRemoveAttrs sc (visitMarker sc cx n).1 m).2 = m := by
      intro m; unfold findRemoveAttrs; rw [if_pos hs]
    rw [this]
    exact visitMarker_throughout hP _ _ _ hc1 h
  · exact h

end AutoEnums
