import Verif.Lemmas.Owned
import Verif.Lemmas.Number

/-! # Regions of inner attributes in a run -/

namespace AutoEnums

open Spec Judg

/-! ## Regions that correspond -/

/-- Every region of the first list is in the second, up to the values of `break`s. -/
def Covers (en : Ident) (rs rs' : List Region) : Prop :=
  ∀ r ∈ rs, ∃ r' ∈ rs', r'.place = r.place ∧ r'.semi = r.semi ∧ BreaksMany en r.node r'.node

theorem Spec.BreaksMany.trans {en : Ident} {a b c : Node} (h : BreaksMany en a b) (h' : BreaksMany en b c) :
    BreaksMany en a c := by
  induction h' with
  | refl => exact h
  | step _ h2 ih => exact .step ih h2

section
variable {en : Ident}

theorem Covers.refl (rs : List Region) : Covers en rs rs := fun r hr => ⟨r, hr, rfl, rfl, .refl⟩

theorem Covers.nil (rs : List Region) : Covers en [] rs := fun _ hr => by simp at hr

theorem Covers.trans {a b c : List Region} (h : Covers en a b) (h' : Covers en b c) : Covers en a c := by
  intro r hr
  obtain ⟨r1, h1, p1, s1, b1⟩ := h r hr
  obtain ⟨r2, h2, p2, s2, b2⟩ := h' r1 h1
  exact ⟨r2, h2, p2.trans p1, s2.trans s1, b1.trans b2⟩

theorem Covers.append {a b a' b' : List Region} (h : Covers en a b) (h' : Covers en a' b') :
    Covers en (a ++ a') (b ++ b') := by
  intro r hr
  rcases List.mem_append.1 hr with hr | hr
  · obtain ⟨r', h1, h2⟩ := h r hr
    exact ⟨r', by simp [h1], h2⟩
  · obtain ⟨r', h1, h2⟩ := h' r hr
    exact ⟨r', by simp [h1], h2⟩

theorem regions_mk (w : Where) (semi : Bool) (k : Kind) (as : List Attr) (ks : List Node) :
    regions w semi (.mk k as ks) =
    if (innerAttr k as).isSome then [⟨w, semi, .mk k as ks⟩]
    else if hidesCode k || oddStatement k ks then [] else regionsL (w.enter k) (endsIn k) ks := by
  rw [regions]
  cases innerAttr k as <;> rfl

theorem innerAttr_bare (k : Kind) : innerAttr k [] = none := by
  unfold innerAttr; split <;> rfl

theorem regions_simple (w : Where) (semi : Bool) {k : Kind} (ks : List Node) (h1 : hidesCode k = false)
    (h2 : oddStatement k ks = false) (h3 : w.enter k = w) (h4 : endsIn k = false) :
    regions w semi (.mk k [] ks) = regionsL w false ks := by
  rw [regions_mk, innerAttr_bare, h1, h2, h3, h4]; rfl

theorem regions_path (w : Where) (semi b : Bool) (p : Path) : regions w semi (.mk (.ePath b p) [] []) = [] := by
  rw [regions_simple w semi [] rfl rfl rfl rfl]; rfl

theorem regions_construct (w : Where) (semi : Bool) (en vn : Ident) (e : Node) :
    regions w semi (construct [] en vn e) = regions w false e := by
  unfold construct
  rw [regions_simple w semi _ rfl rfl rfl rfl]
  simp only [regionsL, regions_path, List.nil_append, List.append_nil]

theorem regions_inCtor (w : Where) (en vn : Ident) (ks : List Node) :
    regionsL w false (inCtor en vn ks) = regionsL w false ks := by
  cases ks with
  | nil =>
    simp only [inCtor, regionsL, regions_construct, List.append_nil]
    rw [regions_simple w false [] rfl rfl rfl rfl]; rfl
  | cons e es => simp only [inCtor, regionsL, regions_construct]

theorem regions_lastInCtor (w : Where) (en vn : Ident) : ∀ (ks : List Node),
    regionsL w false (lastInCtor en vn ks) = regionsL w false ks
  | [] => rfl
  | [e] => by simp only [lastInCtor, regionsL, regions_construct]
  | e :: e' :: es => by
    rw [lastInCtor, regionsL, regions_lastInCtor w en vn (e' :: es), ← regionsL]

theorem regions_allInCtor (w : Where) (en vn : Ident) (ks : List Node) :
    regionsL w false (allInCtor en vn ks) = regionsL w false ks := by
  simp only [allInCtor, regionsL, List.append_nil]
  rw [regions_simple w false _ rfl rfl rfl rfl]
  simp only [regionsL, regions_construct, List.append_nil]
  rw [regions_simple w false _ rfl rfl rfl rfl]

theorem Analysed_kind {n n' : Node} (h : Analysed en n n') : n'.kind = n.kind ∧ n'.rawAttrs = n.rawAttrs := by
  obtain ⟨k, as, ks⟩ := n
  obtain ⟨_, ks', vn, _, _, h⟩ := Analysed_mk.1 h
  rcases h with rfl | ⟨_, _, rfl⟩ | ⟨_, _, rfl⟩ | ⟨_, rfl⟩ <;> exact ⟨rfl, rfl⟩

theorem AnalysedL_shape : ∀ {ns ns' : List Node}, AnalysedL en ns ns' →
    ns'.length = ns.length ∧ ns'.all isExprNode = ns.all isExprNode
  | [], ns', h => by rw [AnalysedL] at h; subst h; exact ⟨rfl, rfl⟩
  | n :: ns, ns', h => by
    rw [AnalysedL] at h
    obtain ⟨m, ms, rfl, h1, h2⟩ := h
    obtain ⟨g1, g2⟩ := AnalysedL_shape h2
    have e : isExprNode m = isExprNode n := by
      rw [isExprNode_eq', isExprNode_eq', (Analysed_kind h1).1]
    simp [g1, g2, e]

theorem oddStatement_analysed {ns ns' : List Node} (h : AnalysedL en ns ns') (k : Kind) :
    oddStatement k ns' = oddStatement k ns := by
  obtain ⟨h1, h2⟩ := AnalysedL_shape h
  unfold oddStatement
  split
  · rw [h1, h2]
  · rfl

theorem regions_analysed : ∀ (n n' : Node), Analysed en n n' → ∀ w semi,
    Covers en (regions w semi n) (regions w semi n') := by
  intro n
  induction n using Node.ind with
  | h k as ks ih =>
    intro n' h w semi
    have hk := Analysed_kind h
    obtain ⟨h0, ks', vn, h1, _, h2⟩ := Analysed_mk.1 h
    obtain ⟨k1, as1, ks1⟩ := n'
    simp only [Node.kind, Node.rawAttrs] at hk
    obtain ⟨rfl, rfl⟩ := hk
    rw [regions_mk, regions_mk]
    by_cases hi : (innerAttr k1 as1).isSome = true
    · rw [if_pos hi, if_pos hi]
      intro r hr
      simp only [List.mem_singleton] at hr
      subst hr
      exact ⟨_, List.mem_singleton.2 rfl, rfl, rfl, .step .refl (h0 hi)⟩
    · rw [if_neg hi, if_neg hi]
      by_cases ho : (hidesCode k1 || oddStatement k1 ks) = true
      · rw [if_pos ho]; exact .nil _
      · rw [if_neg ho]
        have hl : ∀ w semi, Covers en (regionsL w semi ks) (regionsL w semi ks') := by
          clear h h0 h2 hi ho
          intro w semi
          induction ks generalizing ks' with
          | nil => rw [AnalysedL] at h1; subst h1; exact .nil _
          | cons c cs ihs =>
            rw [AnalysedL] at h1
            obtain ⟨m, ms, rfl, g1, g2⟩ := h1
            rw [regionsL, regionsL]
            exact (ih c (by simp) m g1 w semi).append (ihs (fun d hd => ih d (by simp [hd])) _ g2)
        have hod := oddStatement_analysed h1 k1
        rcases h2 with e | ⟨l, rfl, e⟩ | ⟨p, rfl, e⟩ | ⟨hb, e⟩
        · cases e
          rw [hod, if_neg ho]
          exact hl _ _
        · cases e
          have := hl (w.enter (.eBreak l)) false
          rw [← regions_inCtor (ks := ks') (en := en) (vn := vn)] at this
          exact this
        · cases e
          have := hl (w.enter (.arm p)) false
          rw [← regions_lastInCtor (ks := ks') (en := en) (vn := vn)] at this
          exact this
        · cases e
          rcases hb with rfl | ⟨l, rfl⟩
          · have := hl w false
            rw [← regions_allInCtor (ks := ks') (en := en) (vn := vn)] at this
            exact this
          · have := hl w false
            rw [← regions_allInCtor (ks := ks') (en := en) (vn := vn)] at this
            exact this

/-! ## `else` -/

theorem elseBare_mk {k : Kind} {as : List Attr} {ks : List Node} (h1 : k ≠ .eIf) :
    elseBare (.mk k as ks) = elseBareL ks := by
  rw [elseBare]
  have : bareElse (.mk k as ks) = true := by
    unfold bareElse
    split
    · rename_i heq; cases heq; exact absurd rfl h1
    · rfl
  rw [this, Bool.true_and]

theorem elseBare_construct (en vn : Ident) (e : Node) : elseBare (construct [] en vn e) = elseBare e := by
  unfold construct
  rw [elseBare_mk (by intro h; cases h)]
  simp only [elseBareL, Bool.and_true]
  rw [elseBare_mk (by intro h; cases h)]
  simp only [elseBareL, Bool.true_and]

theorem elseBare_inCtor (en vn : Ident) (ks : List Node) : elseBareL (inCtor en vn ks) = elseBareL ks := by
  cases ks with
  | nil =>
    simp only [inCtor, elseBareL, elseBare_construct, Bool.and_true]
    rw [elseBare_mk (by intro h; cases h)]; rfl
  | cons e es => simp only [inCtor, elseBareL, elseBare_construct]

theorem elseBare_lastInCtor (en vn : Ident) : ∀ (ks : List Node), elseBareL (lastInCtor en vn ks) = elseBareL ks
  | [] => rfl
  | [e] => by simp only [lastInCtor, elseBareL, elseBare_construct]
  | e :: e' :: es => by
    rw [lastInCtor, elseBareL, elseBare_lastInCtor en vn (e' :: es), ← elseBareL]

theorem elseBare_allInCtor (en vn : Ident) (ks : List Node) : elseBareL (allInCtor en vn ks) = elseBareL ks := by
  simp only [allInCtor, elseBareL, Bool.and_true]
  rw [elseBare_mk (by intro h; cases h)]
  simp only [elseBareL, elseBare_construct, Bool.and_true]
  rw [elseBare_mk (by intro h; cases h)]

theorem elseBare_analysed : ∀ (n n' : Node), Analysed en n n' → elseBare n = true → elseBare n' = true := by
  intro n
  induction n using Node.ind with
  | h k as ks ih =>
    intro n' h hb
    obtain ⟨h0, ks', vn, h1, _, h2⟩ := Analysed_mk.1 h
    rw [elseBare, Bool.and_eq_true] at hb
    have hl : elseBareL ks' = true := by
      obtain ⟨hb0, hb⟩ := hb
      clear h h0 h2 hb0
      induction ks generalizing ks' with
      | nil => rw [AnalysedL] at h1; subst h1; rfl
      | cons c cs ihs =>
        rw [AnalysedL] at h1
        obtain ⟨m, ms, rfl, g1, g2⟩ := h1
        rw [elseBareL, Bool.and_eq_true] at hb ⊢
        exact ⟨ih c (by simp) m g1 hb.1, ihs (fun d hd => ih d (by simp [hd])) _ g2 hb.2⟩
    rcases h2 with rfl | ⟨l, rfl, rfl⟩ | ⟨p, rfl, rfl⟩ | ⟨hb', rfl⟩
    · rw [elseBare, Bool.and_eq_true]
      refine ⟨?_, hl⟩
      by_cases hk : k = .eIf
      · subst hk
        match ks, ks', h1, hb with
        | [c, t, e], ks', h1, hb =>
          rw [AnalysedL] at h1
          obtain ⟨m1, _, rfl, _, h1⟩ := h1
          rw [AnalysedL] at h1
          obtain ⟨m2, _, rfl, _, h1⟩ := h1
          rw [AnalysedL] at h1
          obtain ⟨m3, _, rfl, h3, h1⟩ := h1
          rw [AnalysedL] at h1
          subst h1
          have := hb.1
          simp only [bareElse] at this ⊢
          rw [(Analysed_kind h3).2]
          exact this
        | [], ks', h1, _ | [_], ks', h1, _ | [_, _], ks', h1, _ | _ :: _ :: _ :: _ :: _, ks', h1, _ =>
          have := (AnalysedL_shape h1).1
          unfold bareElse
          split
          · rename_i heq; cases heq; simp at this
          · rfl
      · have := elseBare_mk (as := as) (ks := ks') hk
        rw [elseBare, hl, Bool.and_true] at this
        exact this
    · rw [elseBare_mk (by intro h; cases h), elseBare_inCtor]; exact hl
    · rw [elseBare_mk (by intro h; cases h), elseBare_lastInCtor]; exact hl
    · rw [elseBare_mk (by rintro rfl; rcases hb' with h | ⟨_, h⟩ <;> cases h), elseBare_allInCtor]; exact hl

/-! ## Before the kids are visited -/

theorem visitMode_covers (sc : Scope) (cx : Cx) (n : Node) (w : Where) (semi : Bool)
    (hi : innerAttr n.kind n.rawAttrs = none) :
    Covers en (regions w semi n) (regions w semi (visitMode sc cx n).2) := by
  unfold visitMode
  split
  · unfold visitReturn
    split
    · split
      · rename_i as ks _
        simp only [Node.kind, Node.rawAttrs] at hi
        rw [regions_mk, regions_mk, hi]
        simp only [Option.isSome_none, Bool.false_eq_true, if_false]
        have e : ∀ w, regionsL w false (cx.replaceBoxed ks).2 = regionsL w false ks := by
          intro w
          cases ks with
          | nil => exact regions_inCtor w _ (variantIdent cx.variants.length) []
          | cons e es =>
            simp only [Cx.replaceBoxed]
            split
            · rfl
            · exact regions_inCtor w _ (variantIdent cx.variants.length) (e :: es)
        simp only [hidesCode, oddStatement, Bool.or_self, Bool.false_eq_true, if_false, endsIn, e]
        exact .refl _
      · exact .refl _
    · exact .refl _
  · unfold visitTry
    split
    · split
      · rename_i as e _
        split
        · exact .refl _
        · simp only [Node.kind, Node.rawAttrs] at hi
          have hi' : innerAttr .eMatch as = none := hi
          rw [regions_mk, regions_mk, hi, hi']
          simp only [Option.isSome_none, Bool.false_eq_true, if_false]
          simp only [hidesCode, oddStatement, Bool.or_self, Bool.false_eq_true, if_false, endsIn, regionsL,
            List.append_nil]
          intro r hr
          exact ⟨r, List.mem_append.2 (.inl hr), rfl, rfl, .refl⟩
      · exact .refl _
    · exact .refl _
  · exact .refl _

theorem visitMode_bare (sc : Scope) (cx : Cx) (n : Node) (h : elseBare n = true) :
    elseBare (visitMode sc cx n).2 = true := by
  unfold visitMode
  split
  · unfold visitReturn
    split
    · split
      · rename_i as ks _
        rw [elseBare_mk (by intro h; cases h)] at h ⊢
        cases ks with
        | nil => exact (elseBare_inCtor _ (variantIdent cx.variants.length) []).trans h
        | cons e es =>
          simp only [Cx.replaceBoxed]
          split
          · exact h
          · exact (elseBare_inCtor _ (variantIdent cx.variants.length) (e :: es)).trans h
      · exact h
    · exact h
  · unfold visitTry
    split
    · split
      · rename_i as e _
        split
        · exact h
        · rw [elseBare_mk (by intro h; cases h)] at h ⊢
          simp only [elseBareL, Bool.and_true] at h ⊢
          rw [h]
          rfl
      · exact h
    · exact h
  · exact h

theorem visitMode_enter (sc : Scope) (cx : Cx) (n : Node) (w : Where) :
    w.enter (visitMode sc cx n).2.kind = w.enter n.kind ∧ (visitMode sc cx n).2.rawAttrs = n.rawAttrs ∧
    (visitMode sc cx n).2.kind.isExpr = n.kind.isExpr ∧ mayCarry (visitMode sc cx n).2.kind = mayCarry n.kind := by
  unfold visitMode
  split
  · unfold visitReturn
    split
    · split <;> exact ⟨rfl, rfl, rfl, rfl⟩
    · exact ⟨rfl, rfl, rfl, rfl⟩
  · unfold visitTry
    split
    · split
      · split <;> exact ⟨rfl, rfl, rfl, rfl⟩
      · exact ⟨rfl, rfl, rfl, rfl⟩
    · exact ⟨rfl, rfl, rfl, rfl⟩
  · exact ⟨rfl, rfl, rfl, rfl⟩

theorem innerAttr_mono {k : Kind} {as as' : List Attr} (h : as'.Sublist as) (hi : innerAttr k as = none) :
    innerAttr k as' = none := by
  unfold innerAttr at hi ⊢
  split
  · rename_i hk
    rw [if_pos hk, List.find?_eq_none] at hi
    rw [List.find?_eq_none]
    exact fun x hx => hi x (h.subset hx)
  · rfl

theorem regions_attrs (w : Where) (semi : Bool) {k : Kind} {as as' : List Attr} {ks : List Node}
    (h : innerAttr k as = none) (h' : innerAttr k as' = none) :
    regions w semi (.mk k as' ks) = regions w semi (.mk k as ks) := by
  rw [regions_mk, regions_mk, h, h']; rfl

theorem elseBare_attrs {k : Kind} {as as' : List Attr} {ks : List Node} :
    elseBare (.mk k as' ks) = elseBare (.mk k as ks) := by
  rw [elseBare, elseBare]
  congr 1
  unfold bareElse
  split
  · rename_i heq; cases heq; rfl
  · split
    · rename_i h _ _ _ _ _ heq
      cases heq
      exact absurd rfl (h _ _ _ _)
    · rfl

theorem findRemove_shape {n n1 : Node} {m : String} {a : Attr} (h : n.findRemoveAttr m = some (a, n1)) :
    ∃ as', as'.Sublist n.rawAttrs ∧ n1 = .mk n.kind as' n.kids := by
  obtain ⟨k, as, ks⟩ := n
  unfold Node.findRemoveAttr at h
  dsimp only at h
  split at h
  · split at h
    · rename_i a' as' hb
      cases h
      obtain ⟨_, l1, l2, h2, h3, _⟩ := findRemove_some hb
      exact ⟨_, by rw [h2, h3]; simp [Node.rawAttrs], rfl⟩
    · cases h
  · cases h

theorem assert_ident (cx : Cx) (b : Bool) (p : Panic) : (cx.assert b p).ident = cx.ident := by
  unfold Cx.assert Cx.panic; split <;> rfl

theorem visitNested_analysed (sc : Scope) (cx : Cx) (n : Node) (a : Attr) (h : elseBare n = true) :
    Analysed cx.ident n (visitNested sc cx n a).2 := by
  unfold visitNested
  dsimp only
  split
  · have := childExpr_analysed n (cx.assert (!sc.foreign) .nestedForeign) h
    rwa [assert_ident] at this
  · exact Analysed_refl _

/-- What is true of an expression before its kids are visited. -/
theorem nestedStep_covers (sc : Scope) (cx : Cx) (n : Node) (w : Where) (semi : Bool)
    (hi : innerAttr n.kind n.rawAttrs = none) (hb : elseBare n = true) :
    Covers cx.ident (regions w semi n) (regions w semi (nestedStep sc cx n).2) ∧
    elseBare (nestedStep sc cx n).2 = true ∧ (nestedStep sc cx n).2.kind = n.kind ∧
    innerAttr (nestedStep sc cx n).2.kind (nestedStep sc cx n).2.rawAttrs = none := by
  unfold nestedStep
  split
  · exact ⟨.refl _, hb, rfl, hi⟩
  · split
    · rename_i a n1 hf
      obtain ⟨as', h1, rfl⟩ := findRemove_shape hf
      obtain ⟨k, as, ks⟩ := n
      simp only [Node.kind, Node.rawAttrs, Node.kids] at *
      have hi' := innerAttr_mono h1 hi
      have hb' : elseBare (.mk k as' ks) = true := by rw [elseBare_attrs]; exact hb
      have ha := visitNested_analysed sc cx (.mk k as' ks) a hb'
      obtain ⟨g1, g2⟩ := Analysed_kind ha
      refine ⟨?_, elseBare_analysed _ _ ha hb', g1, ?_⟩
      · rw [← regions_attrs w semi hi hi']
        exact regions_analysed _ _ ha _ _
      · have : innerAttr (visitNested sc cx (.mk k as' ks) a).2.kind (visitNested sc cx (.mk k as' ks) a).2.rawAttrs = none := by
          rw [g1, g2]; exact hi'
        exact this
    · exact ⟨.refl _, hb, rfl, hi⟩

/-- The same for an expression with a job for the visitor. -/
theorem pre_covers (vk : VK) (sc : Scope) (cx : Cx) {n : Node} (w : Where) (hk : n.kind.isExpr = true)
    (hi : innerAttr n.kind n.rawAttrs = none) (hb : elseBare n = true) :
    Covers cx.ident (regions w semi n) (regionsL (w.enter n.kind) false (pre vk sc cx n).2.sub) ∧
    elseBareL (pre vk sc cx n).2.sub = true := by
  have key : ∀ m : Node, innerAttr m.kind m.rawAttrs = none → m.kind.isExpr = true → w.enter m.kind = w.enter n.kind →
      elseBare m = true → Covers cx.ident (regions w semi n) (regions w semi m) →
      Covers cx.ident (regions w semi n) (regionsL (w.enter n.kind) false m.sub) ∧ elseBareL m.sub = true := by
    intro m h1 h2 h3 h4 h5
    obtain ⟨k, as, ks⟩ := m
    simp only [Node.kind, Node.rawAttrs] at h1 h2 h3
    have h6 : endsIn k = false := by cases k <;> first | rfl | cases h2
    rw [regions_mk, h1, h3, h6, hidesCode_eq] at h5
    rw [elseBare, Bool.and_eq_true] at h4
    refine ⟨?_, ?_⟩
    · simp only [Option.isSome_none, Bool.false_eq_true, if_false] at h5
      refine h5.trans ?_
      split
      · exact .nil _
      · rename_i h
        simp only [Bool.or_eq_true, not_or, Bool.not_eq_true] at h
        simp only [Node.sub, h.1, Bool.false_eq_true, if_false]
        exact .refl _
    · simp only [Node.sub]
      split
      · rfl
      · exact h4.2
  have hs : (seen cx n).ident = cx.ident := by unfold seen; split <;> rfl
  cases vk with
  | dummy => exact key n hi hk rfl hb (.refl _)
  | visitor =>
    have hid := (visitMode_kept sc (seen cx n) n).ident
    obtain ⟨v1, v2, v3, v4⟩ := visitMode_enter sc (seen cx n) n w
    have hk' : (visitMode sc (seen cx n) n).2.kind.isExpr = true := by
      rw [v3]; exact hk
    have hi1 : innerAttr (visitMode sc (seen cx n) n).2.kind (visitMode sc (seen cx n) n).2.rawAttrs = none := by
      rw [v2]
      unfold innerAttr at hi ⊢
      rw [v4]
      exact hi
    obtain ⟨n1, n2, n3, n4⟩ := nestedStep_covers sc (visitMode sc (seen cx n) n).1 (visitMode sc (seen cx n) n).2 w semi hi1
      (visitMode_bare sc (seen cx n) n hb)
    refine key _ n4 ?_ ?_ n2 ?_
    · exact n3 ▸ hk'
    · exact (congrArg w.enter n3).trans v1
    · rw [hid, hs] at n1
      exact (visitMode_covers sc (seen cx n) n w semi hi).trans n1

theorem sub_mk {k : Kind} {as : List Attr} {ks : List Node} (h : k.isOpaque = false) : (Node.mk k as ks).sub = ks := by
  simp only [Node.sub, h, Bool.false_eq_true, if_false]

theorem preSub_covers (vk : VK) (sc : Scope) (cx : Cx) (n : Node) (w : Where) (hb : elseBareL n.sub = true) :
    Covers cx.ident (regionsL w false n.sub) (regionsL w false (preSub vk sc cx n).2.sub) ∧
    elseBareL (preSub vk sc cx n).2.sub = true := by
  cases vk with
  | dummy => exact ⟨.refl _, hb⟩
  | visitor =>
    unfold preSub
    dsimp only
    split
    · exact ⟨.refl _, hb⟩
    · obtain ⟨k, as, ks⟩ := n
      have hsub : ∀ {a : Attr} {k1 : Kind} {as1 : List Attr} {ks1 : List Node},
          (Node.mk k as ks).findRemoveAttr NESTED = some (a, .mk k1 as1 ks1) →
          (Node.mk k as ks).sub = (Node.mk k1 as1 ks1).sub := by
        intro a k1 as1 ks1 hf
        obtain ⟨as', _, h2⟩ := findRemove_shape hf
        cases h2
        rfl
      split
      · rename_i a p as1 b hf
        rw [hsub hf, sub_mk rfl] at hb ⊢
        rw [sub_mk rfl]
        simp only [regionsL, elseBareL, List.append_nil, Bool.and_true] at hb ⊢
        have ha := visitNested_analysed sc cx b a hb
        exact ⟨regions_analysed _ _ ha _ _, elseBare_analysed _ _ ha hb⟩
      · rename_i a p as1 g b hf
        rw [hsub hf, sub_mk rfl] at hb ⊢
        rw [sub_mk rfl]
        simp only [regionsL, elseBareL, List.append_nil, Bool.and_true, Bool.and_eq_true] at hb ⊢
        have ha := visitNested_analysed sc cx b a hb.2
        exact ⟨(Covers.refl _).append (regions_analysed _ _ ha _ _), hb.1, elseBare_analysed _ _ ha hb.2⟩
      · rename_i a p as1 e els hf
        rw [hsub hf, sub_mk rfl] at hb ⊢
        rw [sub_mk rfl]
        simp only [regionsL, elseBareL, Bool.and_eq_true] at hb ⊢
        have ha := visitNested_analysed sc cx e a hb.1
        exact ⟨(regions_analysed _ _ ha _ _).append (.refl _), elseBare_analysed _ _ ha hb.1, hb.2⟩
      · rename_i a m _ _ _ hf
        obtain ⟨k1, as1, ks1⟩ := m
        rw [hsub hf] at hb ⊢
        exact ⟨.refl _, hb⟩
      · exact ⟨.refl _, hb⟩

end

/-! ## After the kids have been visited -/

theorem nodes_self (n : Node) : n ∈ nodes n := by
  obtain ⟨k, as, ks⟩ := n; rw [nodes]; exact List.mem_cons_self

theorem nodes_kids {n x : Node} (h : x ∈ nodesL n.kids) : x ∈ nodes n := by
  obtain ⟨k, as, ks⟩ := n; rw [nodes]; exact List.mem_cons_of_mem _ h

theorem nodesL_mem {ns : List Node} {n x : Node} (hn : n ∈ ns) (h : x ∈ nodes n) : x ∈ nodesL ns := by
  induction ns with
  | nil => simp at hn
  | cons c cs ih =>
    rw [nodesL, List.mem_append]
    rcases List.mem_cons.1 hn with rfl | hn
    · exact .inl h
    · exact .inr (ih hn)

theorem post_nodes (vk : VK) (sc : Scope) (cx : Cx) {n x : Node} (hk : n.kind.isOpaque = false) (h : x ∈ nodesL n.kids) :
    x ∈ nodes (post vk sc cx n).2 := by
  cases vk with
  | dummy => exact nodes_kids h
  | visitor =>
    simp only [post]
    split
    · apply nodes_kids
      rw [findRemoveAttrs_kids]
      have : (visitMarker sc cx n).2 = n := by
        unfold visitMarker
        dsimp only
        split
        · cases hk
        · rfl
      rw [this]
      exact h
    · exact nodes_kids h

theorem postSub_nodes (vk : VK) (sc : Scope) (cx : Cx) {n x : Node} (h : x ∈ nodesL n.kids) :
    x ∈ nodes (postSub vk sc cx n).2 := by
  cases vk with
  | dummy => exact nodes_kids h
  | visitor =>
    apply nodes_kids
    simp only [postSub, findRemoveAttrs_kids]
    exact h

theorem Same.exempts {a b : Cx} (h : Same a b) : b.exempts = a.exempts := by
  unfold Cx.exempts; rw [h.marker, h.root, h.markers]

/-- What becomes of the regions in a run. -/
def Judg.Regs (env : Env) : Judg → Prop
  | one vk sc cx n _ n' => (vk = .visitor → sc.foreign = false) → elseBare n = true → ∀ w, Placed vk sc w →
      ∀ r ∈ regions w false n, ∃ x ∈ nodes n',
        Owned (Expands env) (ExpandsApart env cx.markers) (jobIn vk cx) cx.exempts r x
  | many vk sc cx ns _ ns' => (vk = .visitor → sc.foreign = false) → elseBareL ns = true → ∀ w, Placed vk sc w →
      ∀ r ∈ regionsL w false ns, ∃ x ∈ nodesL ns',
        Owned (Expands env) (ExpandsApart env cx.markers) (jobIn vk cx) cx.exempts r x
  | expr vk sc semi cx n _ n' => (vk = .visitor → sc.foreign = false) → n.kind.isExpr = true → elseBare n = true →
      ∀ w, Placed vk sc w → ∀ r ∈ regions w semi n, ∃ x ∈ nodes n',
        Owned (Expands env) (ExpandsApart env cx.markers) (jobIn vk cx) cx.exempts r x
  | part vk sc cx n _ n' => (vk = .visitor → sc.foreign = false) → elseBareL n.sub = true → ∀ w, Placed vk sc w →
      ∀ r ∈ regionsL w false n.sub, ∃ x ∈ nodes n',
        Owned (Expands env) (ExpandsApart env cx.markers) (jobIn vk cx) cx.exempts r x
  | _ => True

theorem Owned.covered {X X' : Expansion} {J : Job} {ms : List String} {rs rs' : List Region} {ns : List Node} 
    (hc : Covers J.en rs rs') (h : ∀ r ∈ rs', ∃ x ∈ ns, Owned X X' J ms r x) :
    ∀ r ∈ rs, ∃ x ∈ ns, Owned X X' J ms r x := by
  intro r hr
  obtain ⟨r', h1, h2, h3, h4⟩ := hc r hr
  obtain ⟨x, hx, r1, b1, ks', vn, vn', o⟩ := h r' h1
  refine ⟨x, hx, r1, h4.trans b1, ks', vn, vn', ?_⟩
  rw [h2, h3] at o
  exact o

theorem rebuild_kids {n : Node} {ks : List Node} (h : n.kind.isOpaque = false) : (n.rebuild ks).kids = ks := by
  obtain ⟨k, as, ks0⟩ := n
  simp only [Node.kind] at h
  simp only [Node.rebuild, h, Bool.false_eq_true, if_false, Node.kids]

theorem regionsL_sub_opaque {w : Where} {semi : Bool} {n : Node} {r : Region} (h : r ∈ regionsL w semi n.sub) :
    n.kind.isOpaque = false := by
  obtain ⟨k, as, ks⟩ := n
  cases hk : k.isOpaque with
  | false => exact hk
  | true => simp [Node.sub, hk, regionsL] at h

theorem Run.regs {env : Env} {j : Judg} (h : Run env j) : j.Regs env := by
  induction h with
  | nil => intro _ _ w _ r hr; simp [regionsL] at hr
  | @cons vk sc cx n cx1 n' ns cx2 ns' h1 h2 ih1 ih2 =>
    intro hf hb w hw r hr
    have hs := Run.keeps h1
    rw [elseBareL, Bool.and_eq_true] at hb
    rw [regionsL, List.mem_append] at hr
    rcases hr with hr | hr
    · obtain ⟨x, hx, o⟩ := ih1 hf hb.1 w hw r hr
      exact ⟨x, by rw [nodesL, List.mem_append]; exact .inl hx, o⟩
    · obtain ⟨x, hx, o⟩ := ih2 hf hb.2 w hw r hr
      rw [jobIn_same hs, hs.markers, hs.exempts] at o
      exact ⟨x, by rw [nodesL, List.mem_append]; exact .inr hx, o⟩
  | @plain cx vk sc n cx2 ks semi hc hc1 hn hr hrun _ hpost ih =>
    intro hf hk hb w hw r hreg
    have hn' : n.anyAttr NAME = false := by
      cases h : n.anyAttr NAME with
      | false => rfl
      | true => obtain ⟨b, hb⟩ := hn h; rw [hb] at hk; cases hk
    have hin : innerAttr n.kind n.rawAttrs = none := by
      obtain ⟨k, as, ks0⟩ := n
      exact innerAttr_off (Node.findRemoveAttr_none hn')
    obtain ⟨p1, p2⟩ := pre_covers (semi := semi) vk (enter vk sc n) cx w hk hin hb
    have hs := pre_same vk (enter vk sc n) cx n
    have hw' : Placed vk (enter vk sc n) (w.enter n.kind) := by
      cases vk with
      | dummy => intro h; cases h
      | visitor => simp only [enter, hn', Bool.false_eq_true, if_false]; exact Placed.check hw _
    have hf' : vk = .visitor → (enter vk sc n).foreign = false := by
      rintro rfl
      have := hf rfl
      simp only [enter, hn', Bool.false_eq_true, if_false]
      cases n.kind <;> simpa [Scope.check] using this
    have := ih hf' p2 (w.enter n.kind) hw'
    rw [jobIn_same hs, hs.markers, hs.exempts] at this
    have hop : (pre vk (enter vk sc n) cx n).2.kind.isOpaque = false := by
      obtain ⟨r', h1, _⟩ := p1 r hreg
      exact regionsL_sub_opaque h1
    obtain ⟨x, hx, o⟩ := Owned.covered p1 this r hreg
    refine ⟨x, post_nodes _ _ _ (by rw [rebuild_kind]; exact hop) ?_, o⟩
    rw [rebuild_kids hop]
    exact hx
  | @child cx vk sc n attr n1 toks cx1 ch cx2 ks semi ch' n3 hc hc1 hn hf ha hm _ _ hr1 _ _ hch hj hp hran ih1 _ =>
    intro _ hk hb w hw r hreg
    obtain ⟨k, as, ks0⟩ := n
    simp only [Node.kind] at hk
    have hs := pre_same vk (enter vk sc (.mk k as ks0)) cx (.mk k as ks0)
    obtain ⟨hj1, hm1⟩ := makeChild_job (vk := vk) hm
    have hjp := jobIn_same (vk := vk) hs
    have hfo' : vk = .visitor → (enter vk sc (.mk k as ks0)).foreign = true := by
      rintro rfl
      simp only [enter, hn, if_true, Node.kind]
      cases k <;> rfl
    have hw' : Placed vk (enter vk sc (.mk k as ks0)) (w.enter k) := by
      cases vk with
      | dummy => intro h; cases h
      | visitor =>
        simp only [enter, hn, if_true, Node.kind]
        exact Placed.check (sc := { sc with foreign := true }) hw k
    have hks := Run.out hr1 hm1 hfo' (w.enter k) hw'
    rw [hj1, hjp] at hks
    have hj2 : jobIn vk (cx2.joinChild ch') = jobIn vk cx := by
      rw [← hjp, ← hj1, ← jobIn_same (Run.keeps hr1)]
      unfold Cx.joinChild Cx.assert Cx.panic jobIn
      dsimp only
      split <;> rfl
    obtain ⟨hin, hke, ks', vn, vn', g1, g2, g3, g4, g5⟩ := child_region hk hn hf hp
      (fun _ => isMarkerExpr_exempts cx) hj2 hw hks
    have hnew := makeChild_new hc1.1 hm
    have hx := expandsApart hke hnew hran hch
    rw [hs.markers] at hx
    rw [regions_mk, hin] at hreg
    simp only [Option.isSome_some, if_true, List.mem_singleton] at hreg
    subst hreg
    refine ⟨_, nodes_self _, .mk k as ks0, .refl, ks', vn, vn', g1, g2, g3, ?_, ?_⟩
    · simp only [Node.kind, Node.rawAttrs, hin, Option.isSome_some]
    · simp only [Node.kind, Node.rawAttrs, Node.kids]
      rw [Via, hin]
      exact ⟨toks, n3, by rw [ha]; rfl, by rw [← g4]; exact hx, g5⟩
  | @part cx vk sc n cx2 ks _ _ _ _ _ ih =>
    intro hf hb w hw r hreg
    obtain ⟨p1, p2⟩ := preSub_covers vk sc cx n w hb
    have hs := preSub_same vk sc cx n
    have := ih hf p2 w hw
    rw [jobIn_same hs, hs.markers, hs.exempts] at this
    have hop : (preSub vk sc cx n).2.kind.isOpaque = false := by
      obtain ⟨r', h1, _⟩ := p1 r hreg
      exact regionsL_sub_opaque h1
    obtain ⟨x, hx, o⟩ := Owned.covered p1 this r hreg
    refine ⟨x, postSub_nodes _ _ _ ?_, o⟩
    rw [rebuild_kids hop]
    exact hx
  | oneExpr hk _ ih => intro hf hb w hw; exact ih hf hk hb w hw
  | @oneStmt vk sc semi cx e cx' e' as _ ih =>
    intro hf hb w hw r hr
    rw [regions_mk] at hr
    have hi : innerAttr (.sExpr semi) as = none := rfl
    rw [hi] at hr
    simp only [Option.isSome_none, Bool.false_eq_true, if_false] at hr
    split at hr
    · simp at hr
    · rename_i ho
      have he : e.kind.isExpr = true := by
        simpa [oddStatement, hidesCode, isExprNode_eq'] using ho
      rw [elseBare_mk (by intro h; cases h)] at hb
      simp only [elseBareL, Bool.and_true] at hb
      simp only [regionsL, List.append_nil] at hr
      obtain ⟨x, hx, o⟩ := ih hf he hb w hw r hr
      exact ⟨x, nodes_kids (nodesL_mem (List.mem_singleton.2 rfl) hx), o⟩
  | @oneArm vk sc cx n cx' n' p hk _ ih =>
    intro hf hb w hw r hr
    obtain ⟨k, as, ks0⟩ := n
    cases hk
    rw [elseBare_mk (by intro h; cases h)] at hb
    exact ih hf hb w hw r hr
  | @oneLocal vk sc cx n cx' n' p hk hn _ ih =>
    intro hf hb w hw r hr
    obtain ⟨k, as, ks0⟩ := n
    cases hk
    rw [elseBare_mk (by intro h; cases h)] at hb
    rw [regions_mk, innerAttr_off (Node.findRemoveAttr_none hn)] at hr
    exact ih hf hb w hw r hr
  | @oneLocalChild cx attr n1 toks n cx1 ch vk sc cx2 n2 ch' n3 p hk hn hc hf ht hm _ _ hr1 _ _ hch hj hran ih1 _ =>
    intro _ hb w hw r hr
    obtain ⟨hj1, hm1⟩ := makeChild_job (vk := vk) hm
    have hjs : jobIn vk (seen cx n) = jobIn vk cx := by unfold seen; split <;> rfl
    have hms : (seen cx n).markers = cx.markers := by unfold seen; split <;> rfl
    have hes : (seen cx n).errs = [] := by unfold seen; split <;> exact hc.1
    have hfo' : vk = .visitor → (enterS vk sc n).foreign = true := by
      rintro rfl
      simp only [enterS, hn, if_true]
    have hw' : Placed vk (enterS vk sc n) w := by
      cases vk with
      | dummy => intro h; cases h
      | visitor => simp only [enterS, hn, if_true]; exact hw
    obtain ⟨ks, e2, hks⟩ := Run.out hr1 hm1 hfo' w hw'
    rw [hj1, hjs] at hks
    have hnew := makeChild_new hes hm
    have hk2 : n2.kind = .sLocal p := by
      rw [e2, rebuild_kind, findRemove_without hf]; exact hk
    have hx := expandsApart_stmt (semi := false) hk2 hnew hran hch
    rw [hms] at hx
    obtain ⟨hin, ks', vn, vn', g1, g2, g3, g4⟩ := local_region (ms := cx.exempts) hk hf ht
      (ranStmt_local hk2 hran) e2 hks hx
    obtain ⟨k, as, ks0⟩ := n
    have hin' : (innerAttr k as).isSome = true := hin
    rw [regions_mk, if_pos hin'] at hr
    simp only [List.mem_singleton] at hr
    subst hr
    exact ⟨n3, nodes_self _, _, .refl, ks', vn, vn', g1, g2, g3, hin, g4⟩
  | @oneBlock vk sc cx cx' ks n h1 h2 h3 _ ih =>
    intro hf hb w hw r hr
    obtain ⟨k, as, ks0⟩ := n
    simp only [Node.kind] at h1 h2
    have e : w.enter k = w := by cases k <;> first | rfl | cases h1
    have hi : innerAttr k as = none := by
      apply innerAttr_off (ks := ks0)
      apply Node.findRemoveAttr_none (n := .mk k as ks0)
      cases k <;> first
        | (simp [Kind.isExpr] at h1; done) | (simp [Kind.isStmt] at h2; done) | exact absurd rfl (h3 _) | rfl
    have he : endsIn k = false := by cases k <;> first | rfl | cases h2
    have hne : k ≠ .eIf := by rintro rfl; cases h1
    rw [elseBare_mk hne] at hb
    rw [regions_mk, hi, e, he, hidesCode_eq] at hr
    simp only [Option.isSome_none, Bool.false_eq_true, if_false] at hr
    split at hr
    · simp at hr
    · rename_i ho
      simp only [Bool.or_eq_true, not_or, Bool.not_eq_true] at ho
      rw [sub_mk ho.1] at ih
      obtain ⟨x, hx, o⟩ := ih hf hb w hw r hr
      exact ⟨x, nodes_kids (by rw [rebuild_kids (n := .mk k as ks0) ho.1]; exact hx), o⟩
  | @oneInert n cx vk sc h1 h2 h3 _ =>
    intro hf hb w hw r hr
    exfalso
    obtain ⟨k, as, ks0⟩ := n
    simp only [Node.kind] at h1 h2
    rw [regions_mk] at hr
    cases k <;> first
      | (simp [Kind.isStmt] at h1; done) | exact absurd rfl (h2 _) | skip
    · have hi : ∀ b, innerAttr (.sExpr b) as = none := fun _ => rfl
      rw [hi] at hr
      have : ∀ b, oddStatement (.sExpr b) ks0 = true := by
        intro b
        unfold oddStatement
        match ks0 with
        | [] => rfl
        | [e] => exact absurd rfl (fun h => h3 _ _ _ h)
        | _ :: _ :: _ => simp
      rw [this] at hr
      simp at hr
    all_goals simp [innerAttr, mayCarry, isExpression, hidesCode] at hr
  | exprDummy => trivial
  | exprBuild => trivial
  | target => trivial
  | targetExit => trivial
  | buildExpr => trivial
  | buildClosure => trivial
  | _ => trivial

end AutoEnums
