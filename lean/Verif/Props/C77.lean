import Verif.Props.C63

/-! # C77: requests add up -/

namespace AutoEnums

open Derive Spec

theorem wanted_append {fs : Features} {ps qs : List Path} {s : String} :
    Wanted fs (ps ++ qs) s ↔ Wanted fs ps s ∨ Wanted fs qs s := by
  simp only [Wanted, List.mem_append, or_and_right, exists_or]

/-- **C77.** Asking for the traits of two lists at once is asking for those of each. `#[enum_derive(A, B)]` is
accepted for an enum exactly when `#[enum_derive(A)]` and `#[enum_derive(B)]` are; and then an implementation is
generated for it exactly when one of the two generates it, what is left to `#[derive]` is what the first leaves
followed by what the second leaves, and the guard of pin projections is there exactly when one of the two has it. -/
theorem C77 (fs : Features) (d : Data) (toks toks' toks'' : List Tok) (ps qs : List Path)
    (h : IsTraits toks ps) (h' : IsTraits toks' qs) (h'' : IsTraits toks'' (ps ++ qs)) :
    ((∃ o, expand fs d toks'' = .ok o) ↔
      (∃ o, expand fs d toks = .ok o) ∧ ∃ o, expand fs d toks' = .ok o) ∧
    ∀ o o' o'', expand fs d toks = .ok o → expand fs d toks' = .ok o' → expand fs d toks'' = .ok o'' →
      (∀ i, i ∈ o''.impls ↔ i ∈ o.impls ∨ i ∈ o'.impls) ∧
      o''.derive = o.derive ++ o'.derive ∧
      (o''.guard = true ↔ o.guard = true ∨ o'.guard = true) := by
  refine ⟨?_, fun o o' o'' ho ho' ho'' => ?_⟩
  · rw [expand_ok_iff h, expand_ok_iff h', expand_ok_iff h'']
    simp only [wanted_append]
    exact ⟨fun H => ⟨fun i s hs => H i s (.inl hs), fun i s hs => H i s (.inr hs)⟩,
      fun H i s hs => hs.elim (H.1 i s) (H.2 i s)⟩
  · have hi : ∀ i, i ∈ o''.impls ↔ i ∈ o.impls ∨ i ∈ o'.impls := by
      intro i
      rw [expand_impl h ho, expand_impl h' ho', expand_impl h'' ho'']
      simp only [wanted_append, or_and_right, exists_or]
    refine ⟨hi, ?_, ?_⟩
    · rw [expand_derive h ho, expand_derive h' ho', expand_derive h'' ho'', List.filter_append]
    · rw [expand_guard h ho, expand_guard h' ho', expand_guard h'' ho'']
      simp only [List.any_eq_true, hi, or_and_right, exists_or]

/-- `DoubleEndedIterator, Clone` and `Future, foo::Bar, Iterator`: the first brings `Iterator` with it, which the second
asks for too; together there are three implementations. -/
example : ∃ o o' o'',
    expand Ex.default Ex.twoParams (Ex.toks [Ex.tr ["DoubleEndedIterator"], Ex.tr ["Clone"]]) = .ok o ∧
    expand Ex.default Ex.twoParams (Ex.toks [Ex.tr ["Future"], Ex.tr ["foo", "Bar"], Ex.tr ["Iterator"]]) = .ok o' ∧
    expand Ex.default Ex.twoParams (Ex.toks ([Ex.tr ["DoubleEndedIterator"], Ex.tr ["Clone"]] ++
      [Ex.tr ["Future"], Ex.tr ["foo", "Bar"], Ex.tr ["Iterator"]])) = .ok o'' ∧
    o.impls.length = 2 ∧ o'.impls.length = 2 ∧ o''.impls.length = 3 ∧
    o''.derive = [Ex.tr ["Clone"], Ex.tr ["foo", "Bar"]] ∧ o.guard = false ∧ o''.guard = true := by
  obtain ⟨o, h1, h2⟩ := Ex.of_derives (fs := Ex.default) (d := Ex.twoParams)
    (ps := [Ex.tr ["DoubleEndedIterator"], Ex.tr ["Clone"]])
    (p := fun o => o.impls.length == 2 && !o.guard) (by decide +kernel)
  obtain ⟨o', h1', h2'⟩ := Ex.of_derives (fs := Ex.default) (d := Ex.twoParams)
    (ps := [Ex.tr ["Future"], Ex.tr ["foo", "Bar"], Ex.tr ["Iterator"]])
    (p := fun o => o.impls.length == 2) (by decide +kernel)
  obtain ⟨o'', h1'', h2''⟩ := Ex.of_derives (fs := Ex.default) (d := Ex.twoParams)
    (ps := [Ex.tr ["DoubleEndedIterator"], Ex.tr ["Clone"]] ++
      [Ex.tr ["Future"], Ex.tr ["foo", "Bar"], Ex.tr ["Iterator"]])
    (p := fun o => o.impls.length == 3 && o.derive == [Ex.tr ["Clone"], Ex.tr ["foo", "Bar"]] && o.guard)
    (by decide +kernel)
  simp only [Bool.and_eq_true, beq_iff_eq, Bool.not_eq_true'] at h2 h2' h2''
  exact ⟨o, o', o'', h1, h1', h1'', h2.1, h2', h2''.1.1, h2''.1.2, h2.2, h2''.2⟩

end AutoEnums
