import Verif.Spec.Generics
import Verif.Props.C31

/-! # C45: when `Transpose` can be derived -/

namespace AutoEnums

open Spec Derive

/-- Split at the commas outside brackets. -/
def splitTop : Nat → List String → List String → List (List String)
  | _, cur, [] => [cur]
  | d, cur, t :: ts =>
    match nest d t with
    | some d' => splitTop d' (cur ++ [t]) ts
    | none => cur :: splitTop 0 [] ts

theorem splitTop_append {d d' : Nat} {l rest cur : List String} (h : nestAll d l = some d') :
    splitTop d cur (l ++ rest) = splitTop d' (cur ++ l) rest := by
  induction l generalizing d cur with
  | nil => simp [nestAll] at h; simp [h]
  | cons t l ih =>
    rw [nestAll] at h
    cases hn : nest d t with
    | none => simp [hn] at h
    | some e =>
      rw [hn] at h
      rw [List.cons_append, splitTop, hn]
      simp only
      rw [ih h]
      simp

theorem splitTop_comma (cur rest : List String) :
    splitTop 0 cur ("," :: rest) = cur :: splitTop 0 [] rest := by
  rw [splitTop, show nest 0 "," = none by decide]

/-- A comma or nothing. -/
def opt (b : Bool) : List String := if b then [","] else []

theorem splitTop_commaSep : ∀ (l : List (List String)) (b : Bool), (∀ x ∈ l, OneItem x) → l ≠ [] →
    splitTop 0 [] (commaSep l ++ opt b) = l ++ if b then [[]] else []
  | [], _, _, h => absurd rfl h
  | [x], b, hx, _ => by
    have := (hx x (by simp)).2
    cases b
    · rw [commaSep, splitTop_append this]; simp [opt, splitTop]
    · rw [commaSep, splitTop_append this, opt, if_pos rfl, splitTop_comma]; simp [splitTop]
  | x :: y :: l, b, hx, _ => by
    have h1 := (hx x (by simp)).2
    have ih := splitTop_commaSep (y :: l) b (fun z hz => hx z (by simp [hz])) (by simp)
    rw [commaSep, List.append_assoc, splitTop_append h1, List.cons_append, splitTop_comma, ih]
    · simp
    · simp

theorem commaSep_inj {l l' : List (List String)} {b b' : Bool} (h : ∀ x ∈ l, OneItem x)
    (h' : ∀ x ∈ l', OneItem x) (hl : l ≠ [])
    (heq : commaSep l ++ opt b = commaSep l' ++ opt b') : l = l' ∧ b = b' := by
  have h0 : ∀ x ∈ l, x ≠ [] := fun x hx => (h x hx).1
  have h0' : ∀ x ∈ l', x ≠ [] := fun x hx => (h' x hx).1
  by_cases hl' : l' = []
  · subst hl'
    have h1 := splitTop_commaSep l b h hl
    rw [heq] at h1
    cases b'
    · simp only [commaSep, opt, splitTop, List.nil_append] at h1
      cases l with
      | nil => exact absurd rfl hl
      | cons x l =>
        simp only [Bool.false_eq_true, if_false, splitTop] at h1
        rw [List.cons_append] at h1
        exact absurd (List.cons.inj h1).1.symm (h0 x (by simp))
    · simp only [commaSep, List.nil_append, opt, if_true] at h1
      rw [splitTop_comma] at h1
      cases l with
      | nil => exact absurd rfl hl
      | cons x l =>
        rw [List.cons_append] at h1
        exact absurd (List.cons.inj h1).1.symm (h0 x (by simp))
  · have h1 := splitTop_commaSep l b h hl
    rw [heq, splitTop_commaSep l' b' h' hl'] at h1
    cases b <;> cases b' <;> simp only [Bool.false_eq_true, if_false, if_true, List.append_nil] at h1
    · exact ⟨h1.symm, rfl⟩
    · exact absurd rfl (h0 [] (h1 ▸ List.mem_append_right _ (by simp)))
    · exact absurd rfl (h0' [] (h1 ▸ List.mem_append_right _ (by simp)))
    · exact ⟨(List.append_cancel_right h1).symm, rfl⟩

theorem dropLast_last {α} (l : List α) : l.dropLast ++ l.getLast?.toList = l := by
  induction l with
  | nil => rfl
  | cons a l ih =>
    cases l with
    | nil => rfl
    | cons b l => rw [List.dropLast_cons_cons, List.getLast?_cons_cons, List.cons_append, ih]

theorem tysTokens_eq : ∀ (l : List (Param × Bool)) (b : Bool), l ≠ [] →
    (∀ p, l.getLast? = some p → p.2 = b) →
    genericsTokens.tysTokens l = commaSep (l.map (·.1.toks)) ++ opt b
  | [], _, h, _ => absurd rfl h
  | [p], b, _, h => by
    have := h p (by simp)
    simp [genericsTokens.tysTokens, commaSep, opt, this]
  | p :: q :: l, b, _, h => by
    have ih := tysTokens_eq (q :: l) b (by simp) (by
      intro x hx; apply h; rw [List.getLast?_cons_cons]; exact hx)
    rw [genericsTokens.tysTokens, ih]
    · simp only [List.map_cons]
      rw [commaSep.eq_3 p.1.toks _ (by simp)]
      simp
    · simp

/-- The first printed parameter is the first lifetime, if there is one. -/
theorem generics_lifetime {d : Data} (h : ∃ p ∈ d.params, p.lifetime = true) :
    ∃ p ∈ d.params, p.lifetime = true ∧ ∃ rest, genericsTokens d = "<" :: (p.toks ++ rest) := by
  obtain ⟨p, hp, hl⟩ := h
  have hne : d.params ≠ [] := by rintro h; simp [h] at hp
  unfold genericsTokens
  rw [if_neg hne]
  extract_lets puncted lts tys item sep
  have hpun : ∀ x ∈ d.params, ∃ b, (x, b) ∈ puncted := by
    intro x hx
    have : d.params = d.params.dropLast ++ d.params.getLast?.toList := by
      rw [dropLast_last]
    rw [this] at hx
    rcases List.mem_append.mp hx with hx | hx
    · exact ⟨true, List.mem_append_left _ (List.mem_map.mpr ⟨x, hx, rfl⟩)⟩
    · exact ⟨d.trailing, List.mem_append_right _ (List.mem_map.mpr ⟨x, hx, rfl⟩)⟩
  have hpun' : ∀ x ∈ puncted, x.1 ∈ d.params := by
    intro x hx
    rcases List.mem_append.mp hx with hx | hx
    · obtain ⟨y, hy, rfl⟩ := List.mem_map.mp hx; exact List.dropLast_subset _ hy
    · obtain ⟨y, hy, rfl⟩ := List.mem_map.mp hx
      exact List.mem_of_getLast? (by simpa using hy)
  have : lts ≠ [] := by
    obtain ⟨b, hb⟩ := hpun p hp
    exact List.ne_nil_of_mem (List.mem_filter.mpr ⟨hb, hl⟩)
  cases hlts : lts with
  | nil => exact absurd hlts this
  | cons x xs =>
    have hx : x ∈ lts := by rw [hlts]; simp
    have hx' := List.mem_filter.mp hx
    refine ⟨x.1, hpun' x hx'.1, hx'.2, ?_⟩
    simp only [List.flatMap_cons, item, List.cons_append, List.append_assoc]
    exact ⟨_, rfl⟩

/-- Without lifetimes the parameters are printed as written. -/
theorem generics_types {d : Data} (hne : d.params ≠ []) (h : ∀ p ∈ d.params, p.lifetime = false) :
    genericsTokens d = "<" :: (commaSep (d.params.map (·.toks)) ++ opt d.trailing ++ [">"]) := by
  unfold genericsTokens
  rw [if_neg hne]
  extract_lets puncted lts tys item sep
  have hfst : puncted.map (·.1) = d.params := by
    simp only [puncted, List.map_append, List.map_map, Function.comp_def, List.map_id']
    rw [dropLast_last]
  have hlt : ∀ x ∈ puncted, x.1.lifetime = false := by
    intro x hx
    exact h _ (hfst ▸ List.mem_map.mpr ⟨x, hx, rfl⟩)
  have h1 : lts = [] := List.filter_eq_nil_iff.mpr fun x hx => by simp [hlt x hx]
  have h2 : tys = puncted := List.filter_eq_self.mpr fun x hx => by simp [hlt x hx]
  have h3 : sep = [] := by simp [sep, h1]
  rw [h1, h2, h3]
  have hlast : ∀ p, puncted.getLast? = some p → p.2 = d.trailing := by
    intro p hp
    cases hl : d.params.getLast? with
    | none => simp [List.getLast?_eq_none_iff] at hl; exact absurd hl hne
    | some q =>
      simp only [puncted, hl, Option.toList_some, List.map_cons, List.map_nil,
        List.getLast?_concat, Option.some.injEq] at hp
      rw [← hp]
  have hpne : puncted ≠ [] := by
    intro h; rw [h] at hfst; exact hne hfst.symm
  rw [tysTokens_eq puncted d.trailing hpne hlast]
  have : puncted.map (·.1.toks) = d.params.map (·.toks) := by
    conv => rhs; rw [← hfst]
    simp
  simp [this]

/-- `check_fields` in words. -/
theorem checkFields_iff (d : Data) (hp : ∀ p ∈ d.params, ParamLike p)
    (hv : ∀ v ∈ d.variants, TypeLike v.2) :
    checkFields d = true ↔ d.params ≠ [] ∧ (∀ p ∈ d.params, PlainParam p) ∧
      d.params.map (·.toks) = d.variants.map (·.2) := by
  have hitem : ∀ x ∈ d.variants.map (·.2), OneItem x := by
    intro x hx
    obtain ⟨v, hv', rfl⟩ := List.mem_map.mp hx
    exact (hv v hv').item
  have hpitem : ∀ x ∈ d.params.map (·.toks), OneItem x := by
    intro x hx
    obtain ⟨v, hv', rfl⟩ := List.mem_map.mp hx
    exact (hp v hv').item
  by_cases hne : d.params = []
  · simp [checkFields, genericsTokens, hne]
  have hcomma : (if d.params.isEmpty || d.trailing then [","] else []) = opt d.trailing := by
    cases hq : d.params with
    | nil => exact absurd hq hne
    | cons a l => simp [opt]
  unfold checkFields
  rw [hcomma, beq_iff_eq]
  by_cases hl : ∃ p ∈ d.params, p.lifetime = true
  · obtain ⟨p, hpm, hlt, rest, hg⟩ := generics_lifetime hl
    constructor
    · intro heq
      exfalso
      rw [hg] at heq
      have heq : p.toks ++ rest = commaSep (d.variants.map (·.2)) ++ opt d.trailing ++ [">"] :=
        (List.cons.inj heq).2
      have hs := (hp p hpm).shape
      rw [if_pos hlt] at hs
      obtain ⟨n, r, hn⟩ := hs
      rw [hn] at heq
      cases hvs : d.variants with
      | nil =>
        simp only [hvs, List.map_nil, commaSep, opt] at heq
        have hc : ∀ c : Char, c ≠ '\'' → "'" ++ n ≠ String.ofList [c] := by
          intro c hc h
          have := congrArg String.toList h
          simp at this
          exact hc this.1.symm
        cases hdt : d.trailing <;> rw [hdt] at heq
        · exact hc '>' (by decide) (List.cons.inj heq).1
        · exact hc ',' (by decide) (List.cons.inj heq).1
      | cons v vs =>
        have hvt := hv v (by simp [hvs])
        have : ∃ a b c, v.2 = a :: b ∧ commaSep (d.variants.map (·.2)) = a :: c := by
          cases hv2 : v.2 with
          | nil => exact absurd hv2 hvt.item.1
          | cons a b =>
            refine ⟨a, b, ?_⟩
            cases vs with
            | nil => exact ⟨b, rfl, by simp [hvs, commaSep, hv2]⟩
            | cons w ws => exact ⟨_, rfl, by simp only [hvs, List.map_cons, commaSep, hv2, List.cons_append]; rfl⟩
        obtain ⟨a, b, c, h1, h2⟩ := this
        rw [h2] at heq
        simp only [List.cons_append, List.cons.injEq] at heq
        exact hvt.noLifetime n b (by rw [h1, ← heq.1])
    · rintro ⟨_, h, _⟩
      rw [(h p hpm).1] at hlt
      cases hlt
  · have hl' : ∀ p ∈ d.params, p.lifetime = false := by
      intro p hpm
      cases h : p.lifetime with
      | false => rfl
      | true => exact absurd ⟨p, hpm, h⟩ hl
    rw [generics_types hne hl']
    constructor
    · intro heq
      have heq := (List.cons.inj heq).2
      have heq : commaSep (d.params.map (·.toks)) ++ opt d.trailing =
          commaSep (d.variants.map (·.2)) ++ opt d.trailing := by
        exact List.append_cancel_right heq
      have := (commaSep_inj hpitem hitem (by simpa using hne) heq).1
      refine ⟨hne, ?_, this⟩
      intro p hpm
      refine ⟨hl' p hpm, ?_⟩
      have hm : p.toks ∈ d.variants.map (·.2) := this ▸ List.mem_map.mpr ⟨p, hpm, rfl⟩
      obtain ⟨v, hvm, hve⟩ := List.mem_map.mp hm
      have hvt := hv v hvm
      have hs := (hp p hpm).shape
      rw [if_neg (by simp [hl' p hpm])] at hs
      rcases hs with h | ⟨n, r, h⟩ | ⟨n, r, h⟩ | ⟨r, h⟩ | ⟨r, h⟩
      · exact h
      · exact absurd (hve.trans h) (hvt.noColon n r)
      · exact absurd (hve.trans h) (hvt.noEq n r)
      · exact absurd (hve.trans h) (hvt.noConst r)
      · exact absurd (hve.trans h) (hvt.noAttr r)
    · rintro ⟨_, _, h⟩
      rw [h]; simp

/-- C45: if `Transpose` is requested and its feature is on, the expansion succeeds iff the generic
parameters are type parameters without bounds and are exactly the field types, in order. -/
theorem C45 (fs : Features) (d : Data) (toks : List Tok) (ps : List Path)
    (h : IsTraits toks ps) (ht : ∃ p ∈ ps, spelling p = "Transpose")
    (hf : fs .transposeMethods = true)
    (hp : ∀ p ∈ d.params, ParamLike p) (hv : ∀ v ∈ d.variants, TypeLike v.2) :
    (∃ o, expand fs d toks = .ok o) ↔ d.params ≠ [] ∧ (∀ p ∈ d.params, PlainParam p) ∧
      d.params.map (·.toks) = d.variants.map (·.2) := by
  rw [← checkFields_iff d hp hv, expand_ok_iff h]
  obtain ⟨p, hpm, hps⟩ := ht
  have hg : ∃ i ∈ table, i.names = ["Transpose"] ∧ i.path = "ty_impls::transpose" ∧
      i.feature = some .transposeMethods := by decide +kernel
  obtain ⟨i, hi, hn, hpath, hfe⟩ := hg
  constructor
  · intro g
    have := g i "Transpose" ⟨p, hpm, .inl hps.symm⟩
      (getDerive_iff.mpr ⟨hi, by simp [Impl.enabled, cfg, hfe, hf], by simp [hn]⟩)
    simpa [derivable, hpath] using this
  · intro hc j s _ _
    simp [derivable, hc]

/-- C45: without a request for `Transpose` (or with its feature off) the shape of the enum does not
matter. -/
theorem C45_others (fs : Features) (d : Data) (toks : List Tok) (ps : List Path)
    (h : IsTraits toks ps)
    (ht : fs .transposeMethods = false ∨ ∀ p ∈ ps, spelling p ≠ "Transpose") :
    ∃ o, expand fs d toks = .ok o := by
  rw [expand_ok_iff h]
  intro i s hs hg
  have key : ∀ i ∈ table, i.path = "ty_impls::transpose" →
      i.names = ["Transpose"] ∧ i.feature = some .transposeMethods := by decide +kernel
  have keyd : ∀ a ∈ depArms, "Transpose" ∉ a.2.2 := by decide +kernel
  obtain ⟨h1, h2, h3⟩ := getDerive_iff.mp hg
  by_cases hpath : i.path = "ty_impls::transpose"
  · exfalso
    obtain ⟨k1, k2⟩ := key i h1 hpath
    rw [k1, List.mem_singleton] at h3
    subst h3
    rcases ht with ht | ht
    · simp [Impl.enabled, cfg, k2, ht] at h2
    · obtain ⟨p, hp, hs | hs⟩ := hs
      · exact ht p hp hs.symm
      · obtain ⟨a, ha, _, _, hd⟩ := mem_depsOf.mp hs
        exact keyd a ha hd
  · simp [derivable, hpath]

/-- `enum Enum<A, B> { A(A), B(B) }` -/
example : (∀ p ∈ Ex.twoParams.params, ParamLike p) ∧ (∀ v ∈ Ex.twoParams.variants, TypeLike v.2) := by
  refine ⟨?_, ?_⟩
  · intro p hp
    simp only [Ex.twoParams, List.mem_cons, List.not_mem_nil, or_false] at hp
    rcases hp with rfl | rfl <;> exact ⟨by decide, by simp⟩
  · intro v hv
    simp only [Ex.twoParams, List.mem_cons, List.not_mem_nil, or_false] at hv
    have hq : ∀ c : Char, c ≠ '\'' → ∀ n, String.ofList [c] ≠ "'" ++ n := by
      intro c hc n h
      have := congrArg String.toList h
      simp at this
      exact hc this.1
    rcases hv with rfl | rfl
    · exact ⟨by decide, fun n r h => hq 'A' (by decide) n (List.cons.inj h).1, by simp, by simp,
        by simp, by simp⟩
    · exact ⟨by decide, fun n r h => hq 'B' (by decide) n (List.cons.inj h).1, by simp, by simp,
        by simp, by simp⟩

/-- Accepted, also with a trailing comma; rejected: fields swapped, a bound, a lifetime, a field that
is not a parameter. -/
example :
    checkFields Ex.twoParams = true ∧
    checkFields { Ex.twoParams with trailing := true } = true ∧
    checkFields { Ex.twoParams with variants := [("A", ["B"]), ("B", ["A"])] } = false ∧
    checkFields { Ex.twoParams with
      params := [{ toks := ["A", ":", "Copy"] }, { toks := ["B"] }] } = false ∧
    checkFields { Ex.twoParams with
      params := [{ lifetime := true, toks := ["'a"] }, { toks := ["A"] }, { toks := ["B"] }] } = false ∧
    checkFields { Ex.twoParams with
      params := [{ toks := ["A"] }], variants := [("A", ["A"]), ("B", ["u8"])] } = false := by
  decide +kernel

end AutoEnums
