import Verif.Lemmas.Derive
import Verif.TypeAnalysis
import Verif.Spec.Types
import Verif.Lemmas.Types

/-! # C31–C38, C47: what `#[enum_derive]` implements -/

namespace AutoEnums

open Spec Derive

/-! ## Data for the examples -/

namespace Ex

/-- All features. -/
def all : Features := fun _ => true

/-- The default features. -/
def default : Features := fun f => f == .std

/-- `enum Enum<A, B> { A(A), B(B) }` -/
def twoParams : Data :=
  { ident := "Enum", params := [{ toks := ["A"] }, { toks := ["B"] }],
    variants := [("A", ["A"]), ("B", ["B"])] }

/-- The path with the given segments. -/
def tr (l : List Ident) : Path := .ofIdents l

/-- The tokens of an argument list. -/
def toks (ps : List Path) : List Tok := printEntries false (ps.map .trait)

/-- The expansion satisfies `p`. -/
def derives (fs : Features) (d : Data) (ps : List Path) (p : Output → Bool) : Bool :=
  match expand fs d (toks ps) with
  | .ok o => p o
  | .error _ => false

theorem of_derives {fs : Features} {d : Data} {ps : List Path} {p : Output → Bool}
    (h : derives fs d ps p = true) : ∃ o, expand fs d (toks ps) = .ok o ∧ p o = true := by
  unfold derives at h
  split at h
  · exact ⟨_, by assumption, h⟩
  · cases h

theorem toks_isTraits {ps : List Path} (h : (ps.all fun p => !p.segs.isEmpty) = true) :
    IsTraits (toks ps) ps := by
  refine ⟨false, ?_, rfl⟩
  intro p hp
  simpa using List.all_eq_true.mp h p hp

end Ex

/-! ## C38 -/

/-- C38: the arguments are accepted iff they are paths separated by commas, with an optional comma
at the end; they are kept in order, together with their spelling. -/
theorem C38_parse_iff (toks : List Tok) (l : List (String × Path)) :
    Derive.parse toks = .ok l ↔ ∃ ps, IsTraits toks ps ∧ l = ps.map fun p => (spelling p, p) :=
  parse_iff toks l

/-- C38: everything else is an error. -/
theorem C38_reject (fs : Features) (d : Data) (toks : List Tok) :
    expand fs d toks = .error .args ↔ ¬ ∃ ps, IsTraits toks ps := by
  have he : ∀ v : List (String × Option Path), emit fs d v ≠ .error .args := by
    intro v
    induction v with
    | nil => simp [emit]
    | cons e v ih =>
      rw [emit.eq_def]
      simp only
      split
      · split
        · cases hr : emit fs d v with
          | error e => intro h; simp only [Except.map, Except.error.injEq] at h; exact ih (h ▸ hr)
          | ok o => simp [Except.map]
        · simp
      · cases hr : emit fs d v with
        | error e => intro h; simp only [Except.map, Except.error.injEq] at h; exact ih (h ▸ hr)
        | ok o => simp [Except.map]
      · exact ih
  constructor
  · rintro h ⟨ps, hp⟩
    rw [expand_eq hp] at h
    exact he _ h
  · intro h
    cases hp : Derive.parse toks with
    | ok l =>
      obtain ⟨ps, h1, _⟩ := (parse_iff toks l).mp hp
      exact absurd ⟨ps, h1⟩ h
    | error e =>
      have hl : ∀ n t acc e, parseLoop n t acc = .error e → e = .args := by
        intro n
        induction n with
        | zero => intro t acc e h; cases t <;> simp [parseLoop] at h; exact h.symm
        | succ n ih =>
          intro t acc e h
          cases t with
          | nil => simp [parseLoop] at h
          | cons a t =>
            rw [parseLoop] at h
            split at h
            · simpa using h.symm
            · simp at h
            · exact ih _ _ _ h
            · simpa using h.symm
            · simp
      rw [expand, hp, hl _ _ _ _ hp]

/-- `Iterator, ::core::fmt::Debug<T>,` -/
example : IsTraits [.ident "Iterator", .comma, .colon2, .ident "core", .colon2, .ident "fmt",
    .colon2, .ident "Debug", .angle "<T>", .comma]
    [Ex.tr ["Iterator"], ⟨true, [⟨"core", none⟩, ⟨"fmt", none⟩, ⟨"Debug", some "<T>"⟩]⟩] ∧
    spelling ⟨true, [⟨"core", none⟩, ⟨"fmt", none⟩, ⟨"Debug", some "<T>"⟩]⟩ =
      "::core::fmt::Debug<T>" :=
  ⟨⟨true, by simp [Ex.tr, Path.ofIdents], rfl⟩, by decide +kernel⟩

/-- A missing comma. -/
example : expand Ex.all Ex.twoParams [.ident "Clone", .ident "Copy"] = .error .args := rfl

/-! ## C34 -/

/-- C34: the traits passed to `#[derive]` are those requested and not supported, in order and as
written. -/
theorem C34 (fs : Features) (d : Data) (toks : List Tok) (ps : List Path) (o : Output)
    (h : IsTraits toks ps) (ho : expand fs d toks = .ok o) :
    o.derive = ps.filter fun p => ¬ Supported fs (spelling p) := by
  rw [expand_derive h ho]
  simp

/-- `Clone`, `foo::Bar` and, without `"rayon"`, `rayon::ParallelExtend` are passed on. -/
example : ∃ o, expand Ex.default Ex.twoParams (Ex.toks [Ex.tr ["Clone"], Ex.tr ["Iterator"],
      Ex.tr ["rayon", "ParallelExtend"], Ex.tr ["foo", "Bar"]]) = .ok o ∧
    (decide (o.derive = [Ex.tr ["Clone"], Ex.tr ["rayon", "ParallelExtend"], Ex.tr ["foo", "Bar"]])
      = true) :=
  Ex.of_derives (by decide +kernel)

/-! ## C35 -/

/-- C35: a name belongs to one implementation, whatever features are enabled, and the result of the
lookup does not depend on the order of the table. -/
theorem C35 (fs : Features) (s : String) :
    (∀ i ∈ table, ∀ j ∈ table, s ∈ i.names → s ∈ j.names → i = j) ∧
    ∀ t : List Impl, t.Perm table → lookup t fs s = getDerive fs s := by
  refine ⟨fun i hi j hj h1 h2 => table_unique hi hj h1 h2, ?_⟩
  intro t ht
  apply Option.ext
  intro i
  rw [lookup_iff ht, getDerive_iff]

/-- C35: the names are exactly the documented ones. -/
theorem C35_documented (fs : Features) (s : String) :
    (∃ i, getDerive fs s = some i) ↔ Supported fs s := supported_iff.symm

example : Supported Ex.default "io::Read" ∧ ¬ Supported (fun _ => false) "io::Read" ∧
    ¬ Supported Ex.all "Clone" ∧ Supported Ex.default "Iterator" := by decide +kernel

/-! ## C31 -/

/-- The traits whose implementation in the libraries demands another trait that `enum_derive` does
not add. -/
def Spec.notAdded : List String := ["futures03::AsyncBufRead", "tokio1::AsyncBufRead",
  "tokio03::AsyncBufRead", "tokio02::AsyncBufRead", "tokio01::AsyncRead", "tokio01::AsyncWrite"]

theorem needs_dep : ((supertraits.filter fun e => !notAdded.contains e.1).all fun e =>
    depArms.any fun a => a.1.contains e.1 && e.2.all a.2.2.contains &&
      (documented.contains (e.1, a.2.1) || documented.all fun x => x.1 != e.1)) = true := by
  decide +kernel

theorem depsOf_of_needs {fs : Features} {s t : String} (hn : Needs s t) (hs : Supported fs s)
    (hx : s ∉ notAdded) : t ∈ depsOf fs s := by
  obtain ⟨l, hl, ht⟩ := hn
  have h := List.all_eq_true.mp needs_dep (s, l) (List.mem_filter.mpr ⟨hl, by simpa using hx⟩)
  simp only [List.any_eq_true, Bool.and_eq_true, List.contains_iff_mem, List.all_eq_true,
    Bool.or_eq_true, bne_iff_ne, ne_eq] at h
  obtain ⟨a, ha, ⟨h1, h2⟩, h3⟩ := h
  refine mem_depsOf.mpr ⟨a, ha, h1, ?_, h2 t ht⟩
  rcases h3 with h3 | h3
  · exact (supported_of h3).mp hs
  · rcases hs with hs | ⟨f, hs, _⟩ <;> exact absurd rfl (h3 _ hs)

/-- C31 (partial): every supertrait of a requested trait that `enum_derive` implements is
implemented too, except for the six traits in `notAdded`.  Missing: those six, and the traits left
to `#[derive]`, for which nothing is added (see the two theorems below). -/
theorem C31_partial (fs : Features) (d : Data) (toks : List Tok) (ps : List Path) (o : Output)
    (h : IsTraits toks ps) (ho : expand fs d toks = .ok o) (p : Path) (hp : p ∈ ps)
    (hs : Supported fs (spelling p)) (hx : spelling p ∉ notAdded) (t : String)
    (hn : Needs (spelling p) t) : ∃ i ∈ o.impls, t ∈ i.names := by
  have ht := depsOf_of_needs hn hs hx
  obtain ⟨i, hi⟩ := supported_iff.mp (depsOf_supported ht hs)
  exact ⟨i, (expand_impl h ho).mpr ⟨t, ⟨p, hp, .inr ht⟩, hi⟩, (getDerive_iff.mp hi).2.2⟩

/-- C31: nothing is implemented that is neither requested nor a supertrait of something
requested. -/
theorem C31_only (fs : Features) (d : Data) (toks : List Tok) (ps : List Path) (o : Output)
    (h : IsTraits toks ps) (ho : expand fs d toks = .ok o) (i : Impl) (hi : i ∈ o.impls) :
    ∃ s ∈ i.names, Supported fs s ∧ ∃ p ∈ ps, s = spelling p ∨ Needs (spelling p) s := by
  obtain ⟨s, ⟨p, hp, hs⟩, hg⟩ := (expand_impl h ho).mp hi
  exact ⟨s, (getDerive_iff.mp hg).2.2, supported_iff.mpr ⟨i, hg⟩, p, hp, hs.imp id depsOf_needs⟩

/-- C31: every requested trait that is supported is implemented. -/
theorem C31_requested (fs : Features) (d : Data) (toks : List Tok) (ps : List Path) (o : Output)
    (h : IsTraits toks ps) (ho : expand fs d toks = .ok o) (p : Path) (hp : p ∈ ps)
    (hs : Supported fs (spelling p)) : ∃ i ∈ o.impls, spelling p ∈ i.names := by
  obtain ⟨i, hi⟩ := supported_iff.mp hs
  exact ⟨i, (expand_impl h ho).mpr ⟨_, ⟨p, hp, .inl rfl⟩, hi⟩, (getDerive_iff.mp hi).2.2⟩

/-- C31 fails for `#[enum_derive(Copy)]`: `Clone`, which `get_trait_deps` lists, is neither
implemented nor derived. -/
theorem C31_derive_fails : ∃ o, expand Ex.all Ex.twoParams (Ex.toks [Ex.tr ["Copy"]]) = .ok o ∧
    Needs "Copy" "Clone" ∧ o.derive = [Ex.tr ["Copy"]] ∧ o.impls = [] := by
  obtain ⟨o, h1, h2⟩ := Ex.of_derives (fs := Ex.all) (d := Ex.twoParams) (ps := [Ex.tr ["Copy"]])
    (p := fun o => o.derive == [Ex.tr ["Copy"]] && o.impls.isEmpty) (by decide +kernel)
  refine ⟨o, h1, by decide, by simpa using h2⟩

/-- C31 fails for `#[enum_derive(tokio1::AsyncBufRead)]`: `AsyncRead` is not implemented. -/
theorem C31_external_fails : ∃ o,
    expand Ex.all Ex.twoParams (Ex.toks [Ex.tr ["tokio1", "AsyncBufRead"]]) = .ok o ∧
    Supported Ex.all "tokio1::AsyncBufRead" ∧ Needs "tokio1::AsyncBufRead" "tokio1::AsyncRead" ∧
    o.derive = [] ∧ ∀ i ∈ o.impls, "tokio1::AsyncRead" ∉ i.names := by
  obtain ⟨o, h1, h2⟩ := Ex.of_derives (fs := Ex.all) (d := Ex.twoParams)
    (ps := [Ex.tr ["tokio1", "AsyncBufRead"]])
    (p := fun o => o.derive.isEmpty && o.impls.all fun i => !i.names.contains "tokio1::AsyncRead")
    (by decide +kernel)
  exact ⟨o, h1, by decide +kernel, by decide +kernel, by simpa using h2⟩

/-- `#[enum_derive(ExactSizeIterator, Error)]` adds `Iterator`, `Display` and `Debug`. -/
example : ∃ o, expand Ex.default Ex.twoParams
      (Ex.toks [Ex.tr ["ExactSizeIterator"], Ex.tr ["Error"]]) = .ok o ∧
    (decide (o.impls.map (·.names.head?) = [some "Iterator", some "ExactSizeIterator",
      some "Display", some "Debug", some "Error"]) = true) :=
  Ex.of_derives (by decide +kernel)

/-! ## C32 -/

/-- No spelling is requested twice, and two requested traits have only such supertraits in common
that are themselves requested. -/
def Spec.Separate (ps : List Path) : Prop :=
  (ps.map spelling).Nodup ∧ ∀ p ∈ ps, ∀ q ∈ ps, spelling p ≠ spelling q →
    ∀ t, Needs (spelling p) t → Needs (spelling q) t → t ∈ ps.map spelling

theorem wants_nodup {fs : Features} {ps : List Path} (h : Separate ps) :
    (((named ps).flatMap (wants fs (named ps))).map (·.1)).Nodup := by
  obtain ⟨h1, h2⟩ := h
  have hn : ∀ x, ((named ps).any fun b => b.1 == x) = true ↔ x ∈ ps.map spelling := by
    intro x; simp [named, List.any_map, List.any_eq_true]
  have hw : ∀ a x, x ∈ (wants fs (named ps) a).map (·.1) →
      (x ∈ depsOf fs a.1 ∧ x ∉ ps.map spelling) ∨ x = a.1 := by
    intro a x hx
    simp only [wants, List.map_append, List.map_map, List.map_cons, List.map_nil, List.mem_append,
      List.mem_map, List.mem_singleton, Function.comp] at hx
    rcases hx with ⟨y, hy, rfl⟩ | hx
    · obtain ⟨hy1, hy2⟩ := List.mem_filter.mp hy
      refine .inl ⟨hy1, fun hc => ?_⟩
      simp only [(hn y).mpr hc] at hy2
      cases hy2
    · exact .inr hx
  rw [List.map_flatMap, List.Nodup, List.pairwise_flatMap]
  refine ⟨?_, ?_⟩
  · intro a ha
    have ha' : a.1 ∈ ps.map spelling := by
      obtain ⟨p, hp, rfl⟩ := List.mem_map.mp ha; exact List.mem_map.mpr ⟨p, hp, rfl⟩
    simp only [wants, List.map_append, List.map_map, List.map_cons, List.map_nil]
    rw [List.pairwise_append]
    refine ⟨?_, by simp, ?_⟩
    · have := (depsOf_nodup fs a.1).sublist (List.filter_sublist
        (p := fun x => !(named ps).any fun b => b.1 == x))
      rw [List.pairwise_map]
      exact this.imp fun h => h
    · intro x hx y hy
      simp only [List.mem_map, Function.comp] at hx
      simp only [List.mem_singleton] at hy
      obtain ⟨z, hz, rfl⟩ := hx
      subst hy
      rintro rfl
      have := (List.mem_filter.mp hz).2
      simp only [(hn _).mpr ha'] at this
      cases this
  · have : (named ps).Pairwise fun a b => a.1 ≠ b.1 := by
      rw [named, List.pairwise_map]
      rw [List.Nodup, List.pairwise_map] at h1
      exact h1
    refine List.Pairwise.imp_of_mem ?_ this
    intro a b ha hb hab x hx y hy hxy
    subst hxy
    obtain ⟨p, hp, rfl⟩ := List.mem_map.mp ha
    obtain ⟨q, hq, rfl⟩ := List.mem_map.mp hb
    rcases hw _ _ hx with ⟨g1, g2⟩ | g <;> rcases hw _ _ hy with ⟨k1, k2⟩ | k
    · exact g2 (h2 p hp q hq hab x (depsOf_needs g1) (depsOf_needs k1))
    · exact g2 (k ▸ List.mem_map.mpr ⟨q, hq, rfl⟩)
    · exact k2 (g ▸ List.mem_map.mpr ⟨p, hp, rfl⟩)
    · exact hab (g.symm.trans k)

/-- C32 (partial): if no trait is requested twice and no two requested traits share a supertrait
that is not requested, no trait is implemented twice.  Missing: requests sharing a supertrait, for
which the property fails (`C32_fails`). -/
theorem C32_partial (fs : Features) (d : Data) (toks : List Tok) (ps : List Path) (o : Output)
    (h : IsTraits toks ps) (ho : expand fs d toks = .ok o) (hs : Separate ps) : o.impls.Nodup := by
  rw [expand_eq h] at ho
  rw [(emit_ok ho).2.1, resolve_eq]
  obtain ⟨h1, h2⟩ := push_nodup (fs := fs) (l := (named ps).flatMap (wants fs (named ps))) (v := [])
    (by simpa using wants_nodup hs) List.Pairwise.nil
  exact nodup_impls h1 h2

/-- C32 fails for `#[enum_derive(DoubleEndedIterator, ExactSizeIterator)]`, in which no trait is
requested twice: `Iterator` is implemented twice. -/
theorem C32_fails : ∃ o, expand Ex.default Ex.twoParams
      (Ex.toks [Ex.tr ["DoubleEndedIterator"], Ex.tr ["ExactSizeIterator"]]) = .ok o ∧
    (o.impls.filter fun i => i.trait == "::core::iter::Iterator").length = 2 := by
  obtain ⟨o, h1, h2⟩ := Ex.of_derives (fs := Ex.default) (d := Ex.twoParams)
    (ps := [Ex.tr ["DoubleEndedIterator"], Ex.tr ["ExactSizeIterator"]])
    (p := fun o => (o.impls.filter fun i => i.trait == "::core::iter::Iterator").length == 2)
    (by decide +kernel)
  exact ⟨o, h1, by simpa using h2⟩

instance (ps : List Path) : Decidable (Separate ps) :=
  decidable_of_iff ((ps.map spelling).Nodup ∧ ∀ p ∈ ps, ∀ q ∈ ps, spelling p ≠ spelling q →
    ∀ e ∈ supertraits, e.1 = spelling p → ∀ t ∈ e.2, Needs (spelling q) t → t ∈ ps.map spelling) (by
  refine and_congr_right fun _ => ?_
  constructor
  · rintro h p hp q hq hpq t ⟨l, hl, ht⟩ h2
    exact h p hp q hq hpq (_, l) hl rfl t ht h2
  · rintro h p hp q hq hpq ⟨s, l⟩ he rfl t ht h2
    exact h p hp q hq hpq t ⟨l, he, ht⟩ h2)

/-- Requesting the shared supertrait, or one spelling and a trait depending on the other. -/
example : Separate [Ex.tr ["DoubleEndedIterator"], Ex.tr ["Iterator"], Ex.tr ["FusedIterator"]] ∧
    Separate [Ex.tr ["BufRead"], Ex.tr ["io", "Read"], Ex.tr ["Error"], Ex.tr ["fmt", "Debug"]] := by
  decide +kernel

/-! ## C33 -/

theorem alias_deps {fs : Features} {a b : String} (h : Alias a b) {t : String} :
    t ∈ depsOf fs a ↔ t ∈ depsOf fs b := by
  have key : ∀ p ∈ aliases, ∀ arm ∈ depArms, p.1 ∈ arm.1 ↔ p.2 ∈ arm.1 := by decide +kernel
  have h' : ∀ arm ∈ depArms, (a ∈ arm.1 ↔ b ∈ arm.1) := by
    intro arm ha
    rcases h with h | h
    · exact key _ h arm ha
    · exact (key _ h arm ha).symm
  rw [mem_depsOf, mem_depsOf]
  constructor
  · rintro ⟨arm, h1, h2, h3⟩; exact ⟨arm, h1, (h' arm h1).mp h2, h3⟩
  · rintro ⟨arm, h1, h2, h3⟩; exact ⟨arm, h1, (h' arm h1).mpr h2, h3⟩

theorem alias_wanted {fs : Features} {l r : List Path} {p q : Path} (hp : p ∈ l ++ r)
    (ha : Alias (spelling p) (spelling q)) {i : Impl} :
    (∃ s, Wanted fs (l ++ q :: r) s ∧ getDerive fs s = some i) ↔
    ∃ s, Wanted fs (l ++ r) s ∧ getDerive fs s = some i := by
  constructor
  · rintro ⟨s, ⟨x, hx, hs⟩, hg⟩
    have : x = q ∨ x ∈ l ++ r := by
      simp only [List.mem_append, List.mem_cons] at hx ⊢
      rcases hx with h | h | h <;> simp [h]
    rcases this with rfl | h
    · rcases hs with rfl | hs
      · exact ⟨_, ⟨p, hp, .inl rfl⟩, by rw [alias_derive ha]; exact hg⟩
      · exact ⟨s, ⟨p, hp, .inr ((alias_deps ha).mpr hs)⟩, hg⟩
    · exact ⟨s, ⟨x, h, hs⟩, hg⟩
  · rintro ⟨s, ⟨x, hx, hs⟩, hg⟩
    refine ⟨s, ⟨x, ?_, hs⟩, hg⟩
    simp only [List.mem_append, List.mem_cons] at hx ⊢
    rcases hx with h | h <;> simp [h]

/-- C33 (partial): adding, at any position, the other spelling of a trait that is requested and
supported changes neither the set of implemented traits nor the derived ones nor the guard, nor
whether the expansion succeeds.  Missing: the number of implementations, see `C33_once_partial` and
`C33_fails`. -/
theorem C33_partial (fs : Features) (d : Data) (toks toks' : List Tok) (l r : List Path)
    (p q : Path) (h : IsTraits toks (l ++ r)) (h' : IsTraits toks' (l ++ q :: r))
    (hp : p ∈ l ++ r) (ha : Alias (spelling p) (spelling q)) (hs : Supported fs (spelling p)) :
    ((∃ o, expand fs d toks = .ok o) ↔ ∃ o', expand fs d toks' = .ok o') ∧
    ∀ o o', expand fs d toks = .ok o → expand fs d toks' = .ok o' →
      (∀ i, i ∈ o'.impls ↔ i ∈ o.impls) ∧ o'.derive = o.derive ∧ o'.guard = o.guard := by
  have hw := fun i => alias_wanted (fs := fs) (i := i) hp ha
  refine ⟨?_, ?_⟩
  · rw [expand_ok_iff h, expand_ok_iff h']
    constructor
    · intro g i s hs hi
      obtain ⟨s', h1, h2⟩ := (hw i).mp ⟨s, hs, hi⟩
      exact g i s' h1 h2
    · intro g i s hs hi
      obtain ⟨s', h1, h2⟩ := (hw i).mpr ⟨s, hs, hi⟩
      exact g i s' h1 h2
  · intro o o' ho ho'
    have hi : ∀ i, i ∈ o'.impls ↔ i ∈ o.impls := by
      intro i; rw [expand_impl h ho, expand_impl h' ho', hw]
    refine ⟨hi, ?_, ?_⟩
    · have hq : Supported fs (spelling q) := by
        rw [supported_iff, ← alias_derive ha, ← supported_iff]; exact hs
      rw [expand_derive h ho, expand_derive h' ho']
      simp [hq]
    · rw [expand_guard h ho, expand_guard h' ho', Bool.eq_iff_iff]
      simp [hi]

/-- C33 (partial): if moreover the original request is separate (as in C32) and the trait is not
`BufRead`, the implementations are the same, each as often as before, up to their order.
Missing: `BufRead`, for which it fails (`C33_fails`). -/
theorem C33_once_partial (fs : Features) (d : Data) (toks toks' : List Tok) (l r : List Path)
    (p q : Path) (h : IsTraits toks (l ++ r)) (h' : IsTraits toks' (l ++ q :: r))
    (hp : p ∈ l ++ r) (ha : Alias (spelling p) (spelling q)) (hs : Supported fs (spelling p))
    (hq : spelling q ∉ (l ++ r).map spelling) (hsep : Separate (l ++ r))
    (hb : ∀ t, ¬ Needs (spelling q) t) (o o' : Output)
    (ho : expand fs d toks = .ok o) (ho' : expand fs d toks' = .ok o') :
    o'.impls.Perm o.impls := by
  have hsep' : Separate (l ++ q :: r) := by
    refine ⟨?_, ?_⟩
    · have hperm : ((q :: (l ++ r)).map spelling).Perm ((l ++ q :: r).map spelling) :=
        (List.perm_middle.symm).map _
      refine hperm.nodup ?_
      rw [List.map_cons, List.nodup_cons]
      exact ⟨hq, hsep.1⟩
    · intro x hx y hy hxy t hxt hyt
      have hm : ∀ z, z ∈ l ++ q :: r → z = q ∨ z ∈ l ++ r := by
        intro z hz
        simp only [List.mem_append, List.mem_cons] at hz ⊢
        rcases hz with h | h | h <;> simp [h]
      rcases hm x hx with rfl | hx'
      · exact absurd hxt (hb t)
      · rcases hm y hy with rfl | hy'
        · exact absurd hyt (hb t)
        · have := hsep.2 x hx' y hy' hxy t hxt hyt
          simp only [List.map_append, List.map_cons, List.mem_append, List.mem_cons] at this ⊢
          rcases this with h | h <;> simp [h]
  have hm := ((C33_partial fs d toks toks' l r p q h h' hp ha hs).2 o o' ho ho').1
  exact (List.perm_ext_iff_of_nodup (C32_partial fs d toks' _ o' h' ho' hsep')
    (C32_partial fs d toks _ o h ho hsep)).mpr hm

/-- C33 fails for `#[enum_derive(BufRead, io::BufRead)]`: `Read` is implemented twice, whereas
`#[enum_derive(BufRead)]` implements it once. -/
theorem C33_fails : (∃ o, expand Ex.default Ex.twoParams
      (Ex.toks [Ex.tr ["BufRead"], Ex.tr ["io", "BufRead"]]) = .ok o ∧
      (o.impls.map (·.trait) = ["::std::io::Read", "::std::io::BufRead", "::std::io::Read"])) ∧
    ∃ o, expand Ex.default Ex.twoParams (Ex.toks [Ex.tr ["BufRead"]]) = .ok o ∧
      (o.impls.map (·.trait) = ["::std::io::Read", "::std::io::BufRead"]) := by
  constructor
  · obtain ⟨o, h1, h2⟩ := Ex.of_derives (fs := Ex.default) (d := Ex.twoParams)
      (ps := [Ex.tr ["BufRead"], Ex.tr ["io", "BufRead"]])
      (p := fun o => o.impls.map (·.trait) ==
        ["::std::io::Read", "::std::io::BufRead", "::std::io::Read"]) (by decide +kernel)
    exact ⟨o, h1, by simpa using h2⟩
  · obtain ⟨o, h1, h2⟩ := Ex.of_derives (fs := Ex.default) (d := Ex.twoParams)
      (ps := [Ex.tr ["BufRead"]])
      (p := fun o => o.impls.map (·.trait) == ["::std::io::Read", "::std::io::BufRead"])
      (by decide +kernel)
    exact ⟨o, h1, by simpa using h2⟩

/-- `Error, fmt::Debug` and `Error, fmt::Debug, Debug` meet the hypotheses. -/
example : Alias "fmt::Debug" "Debug" ∧ Supported Ex.default "fmt::Debug" ∧
    Separate [Ex.tr ["Error"], Ex.tr ["fmt", "Debug"]] ∧ (∀ t, ¬ Needs "Debug" t) ∧
    Ex.derives Ex.default Ex.twoParams [Ex.tr ["Error"], Ex.tr ["fmt", "Debug"], Ex.tr ["Debug"]]
      (fun o => o.impls.map (·.trait) ==
        ["::core::fmt::Display", "::std::error::Error", "::core::fmt::Debug"]) = true := by
  refine ⟨by decide, by decide, by decide +kernel, ?_, by decide +kernel⟩
  rintro t ⟨l, h, _⟩
  have : "Debug" ∉ supertraits.map (·.1) := by decide +kernel
  exact this (List.mem_map_of_mem (f := (·.1)) h)

/-! ## C36 -/

/-- C36: the conditional `Unpin` implementation and the guard against `Drop` are present iff an
implemented trait has a method with the receiver `Pin<&mut Self>`. -/
theorem C36 (fs : Features) (d : Data) (toks : List Tok) (o : Output)
    (ho : expand fs d toks = .ok o) : o.guard = true ↔ ∃ i ∈ o.impls, usesPin i := by
  have key : ∀ i ∈ table, i.pin = true ↔
      (i.forwarded.any (·.recv == .pin) || i.manual.any (·.sig.recv == .pin)) = true := by
    decide +kernel
  have key : ∀ i ∈ table, i.pin = true ↔ usesPin i := by
    intro i hi
    rw [key i hi]
    simp [usesPin, List.any_eq_true]
  have : ∃ ps, IsTraits toks ps := by
    apply Classical.byContradiction
    intro h
    rw [(C38_reject fs d toks).mpr h] at ho
    cases ho
  obtain ⟨ps, h⟩ := this
  rw [expand_guard h ho, List.any_eq_true]
  constructor
  · rintro ⟨i, hi, hp⟩
    obtain ⟨s, _, hg⟩ := (expand_impl h ho).mp hi
    exact ⟨i, hi, (key i (getDerive_iff.mp hg).1).mp hp⟩
  · rintro ⟨i, hi, hp⟩
    obtain ⟨s, _, hg⟩ := (expand_impl h ho).mp hi
    exact ⟨i, hi, (key i (getDerive_iff.mp hg).1).mpr hp⟩

/-- Present for `Future`, absent for `Iterator`. -/
example : Ex.derives Ex.all Ex.twoParams [Ex.tr ["Iterator"], Ex.tr ["Future"]]
      (fun o => o.guard && o.impls.length == 2) = true ∧
    Ex.derives Ex.all Ex.twoParams [Ex.tr ["Iterator"], Ex.tr ["tokio01", "AsyncRead"]]
      (fun o => !o.guard && o.impls.length == 2) = true := by decide +kernel

/-! ## C37 -/

/-- The features `fs` and `fs'` agree on what the spelling `s` needs. -/
def Agree (fs fs' : Features) (s : String) : Prop := ∀ f, (s, some f) ∈ documented → fs f = fs' f

theorem Agree.supported {fs fs' : Features} {s : String} (h : Agree fs fs' s) :
    Supported fs s ↔ Supported fs' s := by
  constructor
  · rintro (h1 | ⟨f, h1, h2⟩)
    · exact .inl h1
    · exact .inr ⟨f, h1, by rw [← h f h1]; exact h2⟩
  · rintro (h1 | ⟨f, h1, h2⟩)
    · exact .inl h1
    · exact .inr ⟨f, h1, by rw [h f h1]; exact h2⟩

theorem Agree.getDerive {fs fs' : Features} {s : String} (h : Agree fs fs' s) :
    getDerive fs s = getDerive fs' s := by
  apply Option.ext
  intro i
  rw [getDerive_iff, getDerive_iff]
  refine and_congr_right fun hi => and_congr_left fun hs => ?_
  unfold Impl.enabled
  cases hf : i.feature with
  | none => rfl
  | some f => simp only [cfg]; rw [h f (mem_documented.mpr ⟨i, hi, hs, hf⟩)]

theorem Agree.existsAlias {fs fs' : Features} {s : String} (h : Agree fs fs' s)
    (v : List (String × Option Path)) : existsAlias fs s v = existsAlias fs' s v := by
  rw [Bool.eq_iff_iff, existsAlias_iff, existsAlias_iff, h.supported]

theorem Agree.deps {fs fs' : Features} {s t : String} (h : Agree fs fs' s)
    (ht : t ∈ depsOf fs s) : Agree fs fs' t := by
  obtain ⟨a, h1, h2, h3, h4⟩ := mem_depsOf.mp ht
  intro f hf
  rcases depArms_feature h1 h2 h4 with ⟨_, h5⟩ | ⟨h5, h6 | h6⟩
  · exact absurd rfl (h5 _ hf).2
  · cases documented_once h6 hf
  · have h7 := documented_once h6 hf
    rw [h7] at h5
    exact h f h5

theorem Agree.traitDeps {fs fs' : Features} {s : String} (h : Agree fs fs' s) :
    Derive.traitDeps fs s = Derive.traitDeps fs' s := by
  have key : (depArms.all fun a => a.1.all fun s => a.2.1.isNone ||
      documented.contains (s, a.2.1)) = true := by decide +kernel
  have : (depArms.find? fun a => cfg fs a.2.1 && a.1.any (· == s)) =
      depArms.find? fun a => cfg fs' a.2.1 && a.1.any (· == s) := by
    have gen : ∀ (l : List (List String × Option Feature × List String)), (∀ a ∈ l,
        (cfg fs a.2.1 && a.1.any (· == s)) = (cfg fs' a.2.1 && a.1.any (· == s))) →
        (l.find? fun a => cfg fs a.2.1 && a.1.any (· == s)) =
        l.find? fun a => cfg fs' a.2.1 && a.1.any (· == s) := by
      intro l
      induction l with
      | nil => intro _; rfl
      | cons a l ih =>
        intro h
        rw [List.find?_cons, List.find?_cons, h a (by simp), ih fun b hb => h b (by simp [hb])]
    apply gen
    intro a ha
    by_cases hs : s ∈ a.1
    · have hk := List.all_eq_true.mp (List.all_eq_true.mp key a ha) s hs
      cases hf : a.2.1 with
      | none => simp [cfg]
      | some f =>
        rw [hf] at hk
        simp only [Option.isNone_some, Bool.false_or, List.contains_iff_mem] at hk
        simp only [cfg, h f hk]
    · have : a.1.any (· == s) = false := by
        rw [List.any_eq_false]; intro x hx; simp; rintro rfl; exact hs hx
      simp [this]
  unfold Derive.traitDeps
  rw [this]

/-- C37: if two feature sets agree on every feature that gates a requested trait, the results are
the same. -/
theorem C37 (fs fs' : Features) (d : Data) (toks : List Tok) (ps : List Path)
    (h : IsTraits toks ps)
    (hf : ∀ p ∈ ps, ∀ f, (spelling p, some f) ∈ documented → fs f = fs' f) :
    expand fs d toks = expand fs' d toks := by
  rw [expand_eq h, expand_eq h]
  have ha : ∀ a ∈ named ps, Agree fs fs' a.1 := by
    intro a ha
    obtain ⟨p, hp, rfl⟩ := List.mem_map.mp ha
    exact hf p hp
  have hd : ∀ a ∈ named ps, depsOf fs a.1 = depsOf fs' a.1 := by
    intro a h; rw [depsOf, depsOf, (ha a h).traitDeps]
  have hw : (named ps).flatMap (wants fs (named ps)) =
      (named ps).flatMap (wants fs' (named ps)) := by
    have gen : ∀ l : List (String × Path), (∀ a ∈ l, depsOf fs a.1 = depsOf fs' a.1) →
        l.flatMap (wants fs (named ps)) = l.flatMap (wants fs' (named ps)) := by
      intro l
      induction l with
      | nil => intro _; rfl
      | cons a l ih =>
        intro h
        rw [List.flatMap_cons, List.flatMap_cons, ih fun b hb => h b (by simp [hb]), wants, wants,
          h a (by simp)]
    exact gen _ hd
  have hag : ∀ e ∈ (named ps).flatMap (wants fs (named ps)), Agree fs fs' e.1 := by
    intro e he
    obtain ⟨a, h1, h2⟩ := wants_mem.mp ⟨e, he, rfl⟩
    rcases h2 with h2 | h2
    · rw [h2]; exact ha a h1
    · exact (ha a h1).deps h2
  have hr : resolve fs (named ps) = resolve fs' (named ps) := by
    rw [resolve_eq, resolve_eq, ← hw]
    have gen : ∀ (l : List (String × Option Path)), (∀ e ∈ l, Agree fs fs' e.1) → ∀ v,
        l.foldl (push fs) v = l.foldl (push fs') v := by
      intro l
      induction l with
      | nil => intro _ v; rfl
      | cons e l ih =>
        intro h v
        rw [List.foldl_cons, List.foldl_cons, ih fun x hx => h x (by simp [hx])]
        congr 1
        rw [push, push, (h e (by simp)).existsAlias]
    exact gen _ hag []
  rw [← hr]
  have gen : ∀ (l : List (String × Option Path)), (∀ e ∈ l, Agree fs fs' e.1) →
      emit fs d l = emit fs' d l := by
    intro l
    induction l with
    | nil => intro _; rfl
    | cons e l ih =>
      intro h
      rw [emit.eq_def, emit.eq_def fs']
      simp only
      rw [(h e (by simp)).getDerive, ih fun x hx => h x (by simp [hx])]
  apply gen
  intro e he
  rw [resolve_eq] at he
  rcases push_sub he with h | h
  · simp at h
  · exact hag e h

/-- C37: a trait whose feature is off is passed to `#[derive]`. -/
theorem C37_off (fs : Features) (d : Data) (toks : List Tok) (ps : List Path) (o : Output)
    (h : IsTraits toks ps) (ho : expand fs d toks = .ok o) (p : Path) (hp : p ∈ ps) (f : Feature)
    (hd : (spelling p, some f) ∈ documented) (hf : fs f = false) : p ∈ o.derive := by
  rw [C34 fs d toks ps o h ho, List.mem_filter]
  refine ⟨hp, ?_⟩
  have : ¬ Supported fs (spelling p) := by
    rw [supported_of hd]
    intro h
    rw [h f rfl] at hf
    cases hf
  simpa using this

/-- `Iterator, Error` is handled alike with all and with the default features. -/
example : ∀ p ∈ [Ex.tr ["Iterator"], Ex.tr ["Error"]], ∀ e ∈ documented, e.1 = spelling p →
    (e.2.map Ex.all) = e.2.map Ex.default := by decide +kernel

/-! ## C47 -/

/-- C47 (partial): with all features, each trait that type analysis adds is implemented or, being
`Clone`, `Copy`, `PartialEq`, `Eq`, `PartialOrd`, `Ord` or `Hash`, can be derived.
Missing: `error::Error`, for which it fails (`C47_fails`). -/
theorem C47_partial (args : List Path) (ty : Ty) (p : Path) (hp : p ∈ collectTy args ty)
    (hx : spelling p ≠ "error::Error") :
    Supported (fun _ => true) (spelling p) ∨ spelling p ∈ stdDerives := by
  have key : ∀ s ∈ analysable, s ≠ "error::Error" →
      Supported (fun _ => true) s ∨ s ∈ stdDerives := by decide +kernel
  have h1 : spelling p = spelled p ∧ spelled p ∈ analysable := by
    rw [collectTy_eq] at hp
    simp only [inferred, List.mem_filter, List.mem_map] at hp
    obtain ⟨⟨q, _, rfl⟩, h⟩ := hp
    refine ⟨?_, ?_⟩
    · simp [spelling, spelled, bare, List.map_map, Function.comp_def]
    · simp only [decide_eq_true_eq] at h
      exact h.2
  rw [h1.1] at hx ⊢
  exact key _ h1.2 hx

/-- C47 fails for `impl error::Error`: the inferred `error::Error` is neither implemented nor does
it have a derive macro. -/
theorem C47_fails :
    collectTy [] (.mk (.implTrait [some (Ex.tr ["error", "Error"])]) []) =
      [Ex.tr ["error", "Error"]] ∧
    ¬ Supported (fun _ => true) (spelling (Ex.tr ["error", "Error"])) ∧
    spelling (Ex.tr ["error", "Error"]) ∉ stdDerives := by decide +kernel

/-- `impl Iterator + Clone` -/
example : collectTy [] (.mk (.implTrait [some (Ex.tr ["Iterator"]), some (Ex.tr ["Clone"])]) []) =
    [Ex.tr ["Iterator"], Ex.tr ["Clone"]] := by decide +kernel

end AutoEnums
