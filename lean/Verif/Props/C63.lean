import Verif.Props.C31

/-! # C63, C64: more traits, more features, another order -/

namespace AutoEnums

open Derive Spec

/-! ## C63 -/

theorem wanted_mono {fs fs' : Features} {ps ps' : List Path} (hf : ∀ f, fs f = true → fs' f = true)
    (hp : ∀ p ∈ ps, p ∈ ps') {s : String} (h : Wanted fs ps s) : Wanted fs' ps' s := by
  obtain ⟨p, h1, h2⟩ := h
  refine ⟨p, hp p h1, h2.imp id fun h => ?_⟩
  obtain ⟨a, ha, h3, h4, h5⟩ := mem_depsOf.mp h
  exact mem_depsOf.mpr ⟨a, ha, h3, fun f hx => hf f (h4 f hx), h5⟩

theorem getDerive_mono {fs fs' : Features} (hf : ∀ f, fs f = true → fs' f = true) {s : String} {i : Impl}
    (h : getDerive fs s = some i) : getDerive fs' s = some i := by
  obtain ⟨h1, h2, h3⟩ := getDerive_iff.mp h
  refine getDerive_iff.mpr ⟨h1, ?_, h3⟩
  unfold Impl.enabled cfg at h2 ⊢
  split <;> rename_i hx <;> rw [hx] at h2
  exact hf _ h2

/-- C63: with more traits requested and more features enabled, everything that was implemented still is, the guard
against `Drop` and `Unpin` implementations stays, and what was derived is derived or implemented. -/
theorem C63 (fs fs' : Features) (d : Data) (toks toks' : List Tok) (ps ps' : List Path) (o o' : Output)
    (hf : ∀ f, fs f = true → fs' f = true) (hp : ∀ p ∈ ps, p ∈ ps') (h : IsTraits toks ps)
    (h' : IsTraits toks' ps') (ho : expand fs d toks = .ok o) (ho' : expand fs' d toks' = .ok o') :
    (∀ i ∈ o.impls, i ∈ o'.impls) ∧ (o.guard = true → o'.guard = true) ∧
    ∀ p ∈ o.derive, p ∈ o'.derive ∨ ∃ i ∈ o'.impls, spelling p ∈ i.names := by
  have hi : ∀ i ∈ o.impls, i ∈ o'.impls := by
    intro i hi
    obtain ⟨s, hs, hg⟩ := (expand_impl h ho).mp hi
    exact (expand_impl h' ho').mpr ⟨s, wanted_mono hf hp hs, getDerive_mono hf hg⟩
  refine ⟨hi, ?_, ?_⟩
  · rw [expand_guard h ho, expand_guard h' ho']
    intro hg
    obtain ⟨i, h1, h2⟩ := List.any_eq_true.mp hg
    exact List.any_eq_true.mpr ⟨i, hi i h1, h2⟩
  · intro p hd
    rw [C34 fs d toks ps o h ho] at hd
    have hm := hp p (List.mem_filter.mp hd).1
    by_cases hs : Supported fs' (spelling p)
    · exact .inr (C31_requested fs' d toks' ps' o' h' ho' p hm hs)
    · rw [C34 fs' d toks' ps' o' h' ho']
      exact .inl (List.mem_filter.mpr ⟨hm, by simpa using hs⟩)

/-- C63: a request that succeeds still does if traits are left out or features are disabled. -/
theorem C63_fewer (fs fs' : Features) (d : Data) (toks toks' : List Tok) (ps ps' : List Path) (o' : Output)
    (hf : ∀ f, fs f = true → fs' f = true) (hp : ∀ p ∈ ps, p ∈ ps') (h : IsTraits toks ps)
    (h' : IsTraits toks' ps') (ho' : expand fs' d toks' = .ok o') : ∃ o, expand fs d toks = .ok o := by
  have hx := (expand_ok_iff h').mp ⟨o', ho'⟩
  exact (expand_ok_iff h).mpr fun i s hs hg => hx i s (wanted_mono hf hp hs) (getDerive_mono hf hg)

/-- `Iterator, rayon::ParallelExtend` with the default features, and with `Future` and all features. -/
example : ∃ o o', expand Ex.default Ex.twoParams (Ex.toks [Ex.tr ["Iterator"], Ex.tr ["rayon", "ParallelExtend"]]) =
      .ok o ∧
    expand Ex.all Ex.twoParams
      (Ex.toks [Ex.tr ["Future"], Ex.tr ["rayon", "ParallelExtend"], Ex.tr ["Iterator"]]) = .ok o' ∧
    (∀ f, Ex.default f = true → Ex.all f = true) ∧
    o.derive = [Ex.tr ["rayon", "ParallelExtend"]] ∧ o'.derive = [] ∧ o.guard = false ∧ o'.guard = true := by
  obtain ⟨o, h1, h2⟩ := Ex.of_derives (fs := Ex.default) (d := Ex.twoParams)
    (ps := [Ex.tr ["Iterator"], Ex.tr ["rayon", "ParallelExtend"]])
    (p := fun o => o.derive == [Ex.tr ["rayon", "ParallelExtend"]] && !o.guard) (by decide +kernel)
  obtain ⟨o', h1', h2'⟩ := Ex.of_derives (fs := Ex.all) (d := Ex.twoParams)
    (ps := [Ex.tr ["Future"], Ex.tr ["rayon", "ParallelExtend"], Ex.tr ["Iterator"]])
    (p := fun o => o.derive == [] && o.guard) (by decide +kernel)
  simp only [Bool.and_eq_true, beq_iff_eq, Bool.not_eq_true'] at h2 h2'
  exact ⟨o, o', h1, h1', fun _ _ => rfl, h2.1, h2'.1, h2.2, h2'.2⟩

/-! ## C64 -/

theorem separate_perm {ps ps' : List Path} (hp : ps.Perm ps') (h : Separate ps) : Separate ps' := by
  obtain ⟨h1, h2⟩ := h
  refine ⟨(hp.map spelling).nodup_iff.mp h1, ?_⟩
  intro p hq q hq' hne t ht ht'
  exact (hp.map spelling).mem_iff.mp (h2 p (hp.mem_iff.mpr hq) q (hp.mem_iff.mpr hq') hne t ht ht')

/-- C64: the order in which traits are requested decides neither whether the expansion succeeds, nor which traits
are implemented, nor whether there is a guard, and the derived traits are the same up to their order.  Missing: how
often a trait is implemented, see `C64_once_partial` and `C64_fails`. -/
theorem C64_partial (fs : Features) (d : Data) (toks toks' : List Tok) (ps ps' : List Path) (hp : ps.Perm ps')
    (h : IsTraits toks ps) (h' : IsTraits toks' ps') :
    ((∃ o, expand fs d toks = .ok o) ↔ ∃ o', expand fs d toks' = .ok o') ∧
    ∀ o o', expand fs d toks = .ok o → expand fs d toks' = .ok o' →
      (∀ i, i ∈ o.impls ↔ i ∈ o'.impls) ∧ o.derive.Perm o'.derive ∧ o.guard = o'.guard := by
  have hs : ∀ p ∈ ps, p ∈ ps' := fun p h => hp.mem_iff.mp h
  have hs' : ∀ p ∈ ps', p ∈ ps := fun p h => hp.mem_iff.mpr h
  refine ⟨⟨fun ⟨o, ho⟩ => C63_fewer fs fs d toks' toks ps' ps o (fun _ h => h) hs' h' h ho,
    fun ⟨o, ho⟩ => C63_fewer fs fs d toks toks' ps ps' o (fun _ h => h) hs h h' ho⟩, ?_⟩
  intro o o' ho ho'
  obtain ⟨h1, h2, -⟩ := C63 fs fs d toks toks' ps ps' o o' (fun _ h => h) hs h h' ho ho'
  obtain ⟨h3, h4, -⟩ := C63 fs fs d toks' toks ps' ps o' o (fun _ h => h) hs' h' h ho' ho
  refine ⟨fun i => ⟨h1 i, h3 i⟩, ?_, Bool.eq_iff_iff.mpr ⟨h2, h4⟩⟩
  rw [C34 fs d toks ps o h ho, C34 fs d toks' ps' o' h' ho']
  exact hp.filter _

/-- C64 for requests that share only requested supertraits: the implementations are the same up to their order. -/
theorem C64_once_partial (fs : Features) (d : Data) (toks toks' : List Tok) (ps ps' : List Path) (o o' : Output)
    (hp : ps.Perm ps') (hs : Separate ps) (h : IsTraits toks ps) (h' : IsTraits toks' ps')
    (ho : expand fs d toks = .ok o) (ho' : expand fs d toks' = .ok o') : o.impls.Perm o'.impls :=
  (List.perm_ext_iff_of_nodup (C32_partial fs d toks ps o h ho hs)
    (C32_partial fs d toks' ps' o' h' ho' (separate_perm hp hs))).mpr
    (((C64_partial fs d toks toks' ps ps' hp h h').2 o o' ho ho').1)

/-- C64 fails for `BufRead, io::BufRead, io::Read`: in this order `Read` is implemented twice, with `io::Read` in
front it is not. -/
theorem C64_fails : ∃ o o',
    expand Ex.default Ex.twoParams (Ex.toks [Ex.tr ["BufRead"], Ex.tr ["io", "BufRead"], Ex.tr ["io", "Read"]]) =
      .ok o ∧
    expand Ex.default Ex.twoParams (Ex.toks [Ex.tr ["io", "Read"], Ex.tr ["BufRead"], Ex.tr ["io", "BufRead"]]) =
      .ok o' ∧
    (o.impls.filter fun i => i.trait == "::std::io::Read").length = 2 ∧
    (o'.impls.filter fun i => i.trait == "::std::io::Read").length = 1 := by
  obtain ⟨o, h1, h2⟩ := Ex.of_derives (fs := Ex.default) (d := Ex.twoParams)
    (ps := [Ex.tr ["BufRead"], Ex.tr ["io", "BufRead"], Ex.tr ["io", "Read"]])
    (p := fun o => (o.impls.filter fun i => i.trait == "::std::io::Read").length == 2) (by decide +kernel)
  obtain ⟨o', h1', h2'⟩ := Ex.of_derives (fs := Ex.default) (d := Ex.twoParams)
    (ps := [Ex.tr ["io", "Read"], Ex.tr ["BufRead"], Ex.tr ["io", "BufRead"]])
    (p := fun o => (o.impls.filter fun i => i.trait == "::std::io::Read").length == 1) (by decide +kernel)
  exact ⟨o, o', h1, h1', by simpa using h2, by simpa using h2'⟩

/-- `Error, fmt::Debug, Iterator` in two orders. -/
example : List.Perm [Ex.tr ["Error"], Ex.tr ["fmt", "Debug"], Ex.tr ["Iterator"]]
      [Ex.tr ["Iterator"], Ex.tr ["fmt", "Debug"], Ex.tr ["Error"]] ∧
    Separate [Ex.tr ["Error"], Ex.tr ["fmt", "Debug"], Ex.tr ["Iterator"]] ∧
    ∃ o, expand Ex.default Ex.twoParams
      (Ex.toks [Ex.tr ["Error"], Ex.tr ["fmt", "Debug"], Ex.tr ["Iterator"]]) = .ok o ∧
      (decide (o.impls.length = 4) = true) :=
  ⟨by rw [← List.isPerm_iff]; decide +kernel, by decide +kernel, Ex.of_derives (by decide +kernel)⟩

end AutoEnums
