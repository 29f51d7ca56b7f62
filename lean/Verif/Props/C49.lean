import Verif.Spec.Bounds
import Verif.Lemmas.Names
import Verif.Props.C02
import Verif.Props.C31

/-! # C49–C53: when the generated implementations apply -/

namespace AutoEnums

open Spec Derive

variable {Ty : Type}

/-! ## Lemmas -/

/-- The declared associated types are the equated ones, and names resolve to the declaring
traits. -/
def agreesWith (s : String) (t : TraitDecl) (i : Impl) : Bool :=
  i.trait == t.path && i.args.length == t.arity && i.static == (s == "Error") &&
  i.assoc == (t.assoc.filter fun a => a.1 == t.path).map (·.2) &&
  (if i.fnLike then i.args == ["(__T,)"] && t.assoc == [("::core::ops::FnOnce", "Output")]
   else
    i.super.toList.map (fun n => (i.superTrait, n)) ++ i.assoc.map (fun n => (i.trait, n)) ==
      t.assoc && t.assoc.all fun a => declarer i.trait a.2 == a.1)

theorem table_agrees : (table.all fun i => declarations.all fun e =>
    !i.names.contains e.1 || agreesWith e.1 e.2 i) = true := by decide +kernel

theorem agrees_of {s : String} {t : TraitDecl} {i : Impl} (hi : i ∈ table) (hs : s ∈ i.names)
    (ht : (s, t) ∈ declarations) : agreesWith s t i = true := by
  have := List.all_eq_true.mp (List.all_eq_true.mp table_agrees i hi) _ ht
  simpa [hs] using this

theorem impl_table {fs : Features} {d : Data} {toks : List Tok} {o : Derive.Output}
    (ho : expand fs d toks = .ok o) {i : Impl} (hi : i ∈ o.impls) : i ∈ table := by
  have : ∃ ps, IsTraits toks ps := by
    apply Classical.byContradiction
    intro h
    rw [(C38_reject fs d toks).mpr h] at ho
    cases ho
  obtain ⟨ps, h⟩ := this
  obtain ⟨s, _, hg⟩ := (expand_impl h ho).mp hi
  exact (getDerive_iff.mp hg).1

theorem mem_equated {i : Impl} {fst : List String} {e : String × Proj} :
    e ∈ equated i fst ↔ ∃ a ∈ i.super.toList.map (fun n => (i.superTrait, n)) ++
      i.assoc.map (fun n => (i.trait, n)), e = (a.2, ⟨fst, a.1, i.args, a.2⟩) := by
  simp only [equated, List.mem_append, List.mem_map]
  constructor
  · rintro (⟨n, h, rfl⟩ | ⟨n, h, rfl⟩)
    · exact ⟨_, .inl ⟨n, h, rfl⟩, rfl⟩
    · exact ⟨_, .inr ⟨n, h, rfl⟩, rfl⟩
  · rintro ⟨a, ⟨n, h, rfl⟩ | ⟨n, h, rfl⟩, rfl⟩
    · exact .inl ⟨n, h, rfl⟩
    · exact .inr ⟨n, h, rfl⟩

/-- The trait bounds. -/
theorem traitBounds_iff (T : Typing Ty) {s : String} {t : TraitDecl} {i : Impl}
    (ha : agreesWith s t i = true) (ty : List String) (tys : List (List String)) :
    T.Applies (traitBounds i (ty :: tys)) ↔
      T.Uniform t (T.args i.args) ((ty :: tys).map T.denote) := by
  simp only [agreesWith, Bool.and_eq_true, beq_iff_eq] at ha
  obtain ⟨⟨⟨⟨h1, _⟩, _⟩, _⟩, ha⟩ := ha
  by_cases hf : i.fnLike = true
  · simp only [hf, if_true, Bool.and_eq_true, beq_iff_eq] at ha
    simp only [traitBounds, hf, if_true, Typing.Applies, ha.1]
    constructor
    · rintro ⟨u, hu⟩
      have hu' : ∀ x ∈ ty :: tys, T.Holds u (.fn x i.trait) := fun x hx =>
        hu _ (List.mem_map.mpr ⟨x, hx, rfl⟩)
      constructor
      · intro _ hx0
        obtain ⟨x, hx, rfl⟩ := List.mem_map.mp hx0
        rw [← h1]; exact (hu' x hx).1
      · intro _ hx0 _ hy0 a hm
        obtain ⟨x, hx, rfl⟩ := List.mem_map.mp hx0
        obtain ⟨y, hy, rfl⟩ := List.mem_map.mp hy0
        rw [ha.2, List.mem_singleton] at hm
        subst hm
        exact (hu' x hx).2.trans (hu' y hy).2.symm
    · intro hu
      refine ⟨T.assoc (T.denote ty) "::core::ops::FnOnce" (T.args ["(__T,)"]) "Output", ?_⟩
      intro b hb
      obtain ⟨x, hx, rfl⟩ := List.mem_map.mp hb
      refine ⟨?_, ?_⟩
      · rw [h1]; exact hu.impls _ (List.mem_map.mpr ⟨x, hx, rfl⟩)
      · exact hu.assoc _ (List.mem_map.mpr ⟨x, hx, rfl⟩) _ (List.mem_map.mpr ⟨ty, by simp, rfl⟩)
          ("::core::ops::FnOnce", "Output") (by rw [ha.2]; simp)
  · simp only [hf, Bool.false_eq_true, if_false, Bool.and_eq_true, beq_iff_eq,
      List.all_eq_true] at ha
    obtain ⟨h2, h3⟩ := ha
    have heq : ∀ x, (∀ e ∈ equated i ty, T.assoc (T.denote x) (declarer i.trait e.1)
        (T.args i.args) e.1 = T.proj e.2) ↔ ∀ a ∈ t.assoc, T.assoc (T.denote x) a.1
          (T.args i.args) a.2 = T.assoc (T.denote ty) a.1 (T.args i.args) a.2 := by
      intro x
      constructor
      · intro h a hm
        have := h (a.2, ⟨ty, a.1, i.args, a.2⟩) (mem_equated.mpr ⟨a, by rw [h2]; exact hm, rfl⟩)
        simp only [h3 a hm] at this
        exact this
      · intro h e he
        obtain ⟨a, hm, rfl⟩ := mem_equated.mp he
        rw [h2] at hm
        have := h a hm
        simp only [h3 a hm]
        exact this
    simp only [traitBounds, hf, Bool.false_eq_true, if_false, Typing.Applies, List.mem_cons,
      List.mem_map, forall_eq_or_imp, forall_exists_index, and_imp, forall_apply_eq_imp_iff₂,
      Typing.Holds, List.not_mem_nil, heq]
    constructor
    · rintro ⟨_, ⟨hu, _⟩, hus⟩
      have key : ∀ x ∈ ty :: tys, ∀ a ∈ t.assoc, T.assoc (T.denote x) a.1
          (T.args i.args) a.2 = T.assoc (T.denote ty) a.1 (T.args i.args) a.2 := by
        intro x hx
        rcases List.mem_cons.mp hx with rfl | hx
        · intro a _; rfl
        · exact (hus x hx).2
      constructor
      · intro _ hx0
        obtain ⟨x, hx, rfl⟩ := List.mem_map.mp hx0
        rw [← h1]
        rcases List.mem_cons.mp hx with rfl | hx
        · exact hu
        · exact (hus x hx).1
      · intro _ hx0 _ hy0 a hm
        obtain ⟨x, hx, rfl⟩ := List.mem_map.mp hx0
        obtain ⟨y, hy, rfl⟩ := List.mem_map.mp hy0
        exact (key x hx a hm).trans (key y hy a hm).symm
    · intro hu
      refine ⟨T.denote ty, ⟨?_, by simp⟩, ?_⟩
      · rw [h1]; exact hu.impls _ (List.mem_map.mpr ⟨ty, by simp, rfl⟩)
      · intro x hx
        refine ⟨by rw [h1]; exact hu.impls _ (List.mem_map.mpr ⟨x, by simp [hx], rfl⟩), ?_⟩
        intro a hm
        exact hu.assoc _ (List.mem_map.mpr ⟨x, by simp [hx], rfl⟩) _
          (List.mem_map.mpr ⟨ty, by simp, rfl⟩) a hm

theorem bounds_iff (T : Typing Ty) {s : String} {t : TraitDecl} {i : Impl}
    (ha : agreesWith s t i = true) {d : Data} (hd : d.variants ≠ []) :
    T.Applies (bounds d i) ↔ T.Uniform t (T.args i.args) (T.payloads d) ∧
      (s = "Error" → ∀ ty ∈ T.payloads d, T.static ty) := by
  have hs : i.static = true ↔ s = "Error" := by
    simp only [agreesWith, Bool.and_eq_true, beq_iff_eq] at ha
    rw [ha.1.1.2, beq_iff_eq]
  obtain ⟨v, vs, hv⟩ := List.exists_cons_of_ne_nil hd
  have key := traitBounds_iff T ha v.2 (vs.map (·.2))
  have hp : T.payloads d = (v.2 :: vs.map (·.2)).map T.denote := by
    simp [Typing.payloads, hv, Function.comp_def]
  rw [hp, ← key, ← hs]
  simp only [bounds, hv, List.map_cons, Typing.Applies, List.mem_append]
  constructor
  · rintro ⟨u, hu⟩
    refine ⟨⟨u, fun b hb => hu b (.inl hb)⟩, ?_⟩
    intro hst ty hty
    obtain ⟨x, hx, rfl⟩ : ∃ x, (x = v ∨ x ∈ vs) ∧ T.denote x.2 = ty := by
      simp only [List.mem_cons, List.mem_map] at hty
      rcases hty with rfl | ⟨_, ⟨x, hx, rfl⟩, rfl⟩
      · exact ⟨v, .inl rfl, rfl⟩
      · exact ⟨x, .inr hx, rfl⟩
    refine hu (.static x.2) (.inr ?_)
    rw [if_pos hst]
    rcases hx with rfl | hx
    · exact List.mem_cons_self
    · exact List.mem_cons_of_mem _ (List.mem_map.mpr ⟨x, hx, rfl⟩)
  · rintro ⟨⟨u, hu⟩, hst⟩
    refine ⟨u, ?_⟩
    rintro b (hb | hb)
    · exact hu b hb
    · by_cases h : i.static = true
      · rw [if_pos h] at hb
        have : ∃ x ∈ v :: vs, b = .static x.2 := by
          rcases List.mem_cons.mp hb with rfl | hb
          · exact ⟨v, by simp, rfl⟩
          · obtain ⟨x, hx, rfl⟩ := List.mem_map.mp hb
            exact ⟨x, by simp [hx], rfl⟩
        obtain ⟨x, hx, rfl⟩ := this
        refine hst h (T.denote x.2) ?_
        rcases List.mem_cons.mp hx with rfl | hx
        · simp
        · exact List.mem_cons_of_mem _ (List.mem_map.mpr ⟨x.2, List.mem_map.mpr ⟨x, hx, rfl⟩, rfl⟩)
      · rw [if_neg h] at hb; cases hb

/-! ## C49 -/

/-- C49: an implementation is of the trait that was requested, with the right number of type
arguments, and it applies exactly if the types of all variants implement the trait with the same
type arguments and the same associated types, inherited ones included.  `Error` in addition
requires the types to be `'static`. -/
theorem C49 (T : Typing Ty) (fs : Features) (d : Data) (toks : List Tok) (o : Derive.Output)
    (ho : expand fs d toks = .ok o) (hd : d.variants ≠ []) (i : Impl) (hi : i ∈ o.impls)
    (s : String) (hs : s ∈ i.names) (t : TraitDecl) (ht : (s, t) ∈ declarations) :
    i.trait = t.path ∧ i.args.length = t.arity ∧
    (T.Applies (bounds d i) ↔ T.Uniform t (T.args i.args) (T.payloads d) ∧
      (s = "Error" → ∀ ty ∈ T.payloads d, T.static ty)) := by
  have ha := agrees_of (impl_table ho hi) hs ht
  refine ⟨?_, ?_, bounds_iff T ha hd⟩ <;>
  · simp only [agreesWith, Bool.and_eq_true, beq_iff_eq] at ha
    first | exact ha.1.1.1.1 | exact ha.1.1.1.2

/-- Every supported trait has a declaration. -/
theorem C49_declared : ∀ e ∈ documented, e.1 ≠ "Transpose" → ∃ t, (e.1, t) ∈ declarations := by
  intro e he hn
  have key : (documented.all fun e => e.1 == "Transpose" ||
      declarations.any fun t => t.1 == e.1) = true := by decide +kernel
  have := List.all_eq_true.mp key e he
  simp only [Bool.or_eq_true, beq_iff_eq, hn, false_or, List.any_eq_true] at this
  obtain ⟨⟨s, t⟩, ht, rfl⟩ := this
  exact ⟨t, ht⟩

namespace Ex

/-- The declaration of `DoubleEndedIterator`. -/
def doubleEnded : TraitDecl :=
  { path := "::core::iter::DoubleEndedIterator", assoc := [("::core::iter::Iterator", "Item")] }

/-- The implementation of `DoubleEndedIterator`. -/
def doubleEndedImpl : Impl := (getDerive all "DoubleEndedIterator").get (by decide +kernel)

/-- Two types `0` and `1`: both implement everything; the associated types of `1` are `2`, those of
`0` are `x`. -/
def typing (x : Nat) : Typing Nat where
  denote l := if l = ["A"] then 0 else if l = ["B"] then 1 else 3
  impls _ _ _ := True
  assoc ty _ _ _ := if ty = 0 then x else 2
  static _ := True

end Ex

/-- `DoubleEndedIterator` applies to types with the same `Item` ... -/
example : (Ex.typing 2).Applies (bounds Ex.twoParams Ex.doubleEndedImpl) :=
  (bounds_iff _ (s := "DoubleEndedIterator") (t := Ex.doubleEnded) (by decide +kernel) (by decide)).mpr
    ⟨⟨fun _ _ => trivial, by decide⟩, fun h => absurd h (by decide)⟩

/-- ... and not to types with different ones. -/
example : ¬ (Ex.typing 5).Applies (bounds Ex.twoParams Ex.doubleEndedImpl) := by
  intro h
  have := ((bounds_iff _ (s := "DoubleEndedIterator") (t := Ex.doubleEnded) (by decide +kernel) (by decide)).mp h).1.assoc
  revert this
  decide

/-- The hypotheses of `C49` are met. -/
example : ∃ o, expand Ex.all Ex.twoParams (Ex.toks [Ex.tr ["DoubleEndedIterator"]]) = .ok o ∧
    (o.impls.any fun i => i.names.contains "DoubleEndedIterator") = true :=
  Ex.of_derives (by decide +kernel)

/-! ## C50 -/

/-- C50: an implementation defines exactly the associated types that its trait itself declares, in
order, and if it applies, each of them is that of the type of every variant. -/
theorem C50 (T : Typing Ty) (fs : Features) (d : Data) (toks : List Tok) (o : Derive.Output)
    (ho : expand fs d toks = .ok o) (hd : d.variants ≠ []) (i : Impl) (hi : i ∈ o.impls)
    (s : String) (hs : s ∈ i.names) (t : TraitDecl) (ht : (s, t) ∈ declarations) :
    (assocTypes d i).map (·.1) = (t.assoc.filter fun a => a.1 = t.path).map (·.2) ∧
    (T.Applies (bounds d i) → ∀ a ∈ assocTypes d i, ∀ ty ∈ T.payloads d,
      T.proj a.2 = T.assoc ty t.path (T.args i.args) a.1) := by
  have ha := agrees_of (impl_table ho hi) hs ht
  have hb := bounds_iff T ha hd
  simp only [agreesWith, Bool.and_eq_true, beq_iff_eq] at ha
  obtain ⟨v, vs, hv⟩ := List.exists_cons_of_ne_nil hd
  have hpath := ha.1.1.1.1
  have hassoc := ha.1.2
  have hbeq : (fun a : String × String => a.1 == t.path) = fun a => decide (a.1 = t.path) := by
    funext a; rw [Bool.eq_iff_iff]; simp
  rw [hbeq] at hassoc
  simp only [assocTypes, hv, List.map_map, Function.comp_def, List.map_id']
  refine ⟨hassoc, ?_⟩
  intro h a hm ty hty
  obtain ⟨n, hn, rfl⟩ := List.mem_map.mp hm
  have hn' := hn
  rw [hassoc] at hn'
  obtain ⟨⟨p, n'⟩, hp, rfl⟩ := List.mem_map.mp hn'
  obtain ⟨hp, hq⟩ := List.mem_filter.mp hp
  simp only [decide_eq_true_eq] at hq
  subst hq
  have := (hb.mp h).1.assoc (T.denote v.2) (by simp [Typing.payloads, hv]) ty hty _ hp
  simp only [Typing.proj, hpath]
  exact this

/-- `Coroutine` defines two associated types, `DoubleEndedIterator` none. -/
example : ((assocTypes Ex.twoParams ((getDerive Ex.all "Coroutine").get (by decide +kernel))).map (·.1) =
    ["Yield", "Return"]) ∧
    (assocTypes Ex.twoParams Ex.doubleEndedImpl) = [] := by
  decide +kernel

/-! ## C51 -/

/-- What `Needs` requires of two implementations and their traits. -/
theorem table_needs : (supertraits.all fun e => e.2.all fun s' => s' != "Error" &&
    table.all fun i => !i.names.contains e.1 || table.all fun i' => !i'.names.contains s' ||
      i.args == i'.args && declarations.all fun t => t.1 != e.1 || declarations.all fun t' => t'.1 != s' ||
        t'.2.assoc.all fun a => t.2.assoc.contains a) = true := by decide +kernel

/-- C51: whenever the implementation of a trait applies, so do the generated implementations of its
supertraits, for types that implement the supertraits of what they implement. -/
theorem C51 (T : Typing Ty) (hT : T.Closed) (fs : Features) (d : Data) (toks : List Tok)
    (o : Derive.Output) (ho : expand fs d toks = .ok o) (hd : d.variants ≠ []) (i i' : Impl)
    (hi : i ∈ o.impls) (hi' : i' ∈ o.impls) (s s' : String) (hs : s ∈ i.names)
    (hs' : s' ∈ i'.names) (hn : Needs s s') (h : T.Applies (bounds d i)) :
    T.Applies (bounds d i') := by
  have hti := impl_table ho hi
  have hti' := impl_table ho hi'
  have hdecl : ∀ {x : String} {j : Impl}, j ∈ table → x ∈ j.names → (∃ k, Needs x k ∨ Needs k x) →
      ∃ t, (x, t) ∈ declarations := by
    intro x j hj hx hk
    refine (C49_declared (x, j.feature) (mem_documented.mpr ⟨j, hj, hx, rfl⟩) ?_)
    rintro rfl
    revert hk
    rintro ⟨k, ⟨l, hl, _⟩ | ⟨l, hl, hx⟩⟩
    · have key : ∀ e ∈ supertraits, e.1 ≠ "Transpose" := by decide +kernel
      exact key _ hl rfl
    · have key : ∀ e ∈ supertraits, "Transpose" ∉ e.2 := by decide +kernel
      exact key _ hl hx
  obtain ⟨t, ht⟩ := hdecl hti hs ⟨_, .inl hn⟩
  obtain ⟨t', ht'⟩ := hdecl hti' hs' ⟨_, .inr hn⟩
  obtain ⟨l, hl, hl'⟩ := hn
  have key := List.all_eq_true.mp (List.all_eq_true.mp table_needs _ hl) _ hl'
  simp only [Bool.and_eq_true, bne_iff_ne, ne_eq, List.all_eq_true, Bool.or_eq_true,
    Bool.not_eq_true', List.contains_iff_mem] at key
  obtain ⟨hne, key⟩ := key
  have k1 := (key i hti).resolve_left (by simp [hs])
  have k2 := (k1 i' hti').resolve_left (by simp [hs'])
  obtain ⟨hargs, k3⟩ := k2
  have hargs : i.args = i'.args := by simpa using hargs
  have k4 := (k3 _ ht).resolve_left (by simp)
  have k5 := (k4 _ ht').resolve_left (by simp)
  have hu := (bounds_iff T (agrees_of hti hs ht) hd).mp h
  refine (bounds_iff T (agrees_of hti' hs' ht') hd).mpr ⟨⟨?_, ?_⟩, fun h => absurd h hne⟩
  · intro ty hty
    rw [← hargs]
    exact hT _ _ _ _ ⟨l, hl, hl'⟩ ht ht' _ _ (hu.1.impls ty hty)
  · intro ty hty ty' hty' a ha
    rw [← hargs]
    exact hu.1.assoc ty hty ty' hty' a (k5 a ha)

/-- Types implementing everything implement supertraits. -/
example : (Ex.typing 2).Closed := fun _ _ _ _ _ _ _ _ _ _ => trivial

/-- `Fn` comes with `FnMut` and `FnOnce`. -/
example : ∃ o, expand Ex.all Ex.twoParams (Ex.toks [Ex.tr ["Fn"]]) = .ok o ∧
    (o.impls.map (·.names)) = [["FnMut"], ["FnOnce"], ["Fn"]] := by
  obtain ⟨o, h, hp⟩ := Ex.of_derives (fs := Ex.all) (d := Ex.twoParams) (ps := [Ex.tr ["Fn"]])
    (p := fun o => o.impls.map (·.names) == [["FnMut"], ["FnOnce"], ["Fn"]]) (by decide +kernel)
  exact ⟨o, h, by simpa using hp⟩

/-! ## C52 -/

theorem reserved_E (k : Nat) : Reserved ("__E" ++ toString k) := by
  simp [Reserved, String.toList_append]

theorem table_reserved : ∀ i ∈ table, (i.params.Nodup ∧ ∀ p ∈ i.params, Reserved p ∨
    i.names = ["Coroutine"] ∧ p = "R") ∧ ∀ m ∈ i.generics, m.2.Nodup ∧ ∀ p ∈ m.2, Reserved p ∧
      p ∉ i.params := by decide +kernel

theorem transpose_generics : ∀ i ∈ table, i.path = "ty_impls::transpose" → i.generics = [] := by
  decide +kernel

theorem nodup_E (n : Nat) : ((List.range n).map fun k => "__E" ++ toString k).Nodup :=
  List.Pairwise.map _ (fun _ _ h e => h (prefix_inj e)) List.nodup_range

/-- Everything an implementation adds to the parameters of the enum. -/
theorem noClash_of {d : Data} {i : Impl} (hi : i ∈ table)
    (h1 : (d.params.map (·.name)).Nodup)
    (h2 : ∀ p ∈ d.params.map (·.name), p ∉ i.params ∧ (∀ m ∈ i.generics, p ∉ m.2) ∧
      (i.path = "ty_impls::transpose" → p ≠ "__E" ∧ p ≠ "__T" ∧ ∀ k : Nat, p ≠ "__E" ++ toString k)) :
    NoClash d i := by
  obtain ⟨⟨t1, _⟩, t3⟩ := table_reserved i hi
  unfold NoClash implParams
  by_cases ht : i.path = "ty_impls::transpose"
  · simp only [ht, if_true, List.mem_cons, List.not_mem_nil, or_false, transpose_generics i hi ht,
      false_imp_iff, implies_true, and_true]
    rintro ps (rfl | rfl | rfl | rfl)
    · exact h1
    · refine List.nodup_append.mpr ⟨h1, nodup_E _, ?_⟩
      rintro a ha b hb rfl
      obtain ⟨k, _, e⟩ := List.mem_map.mp hb
      exact ((h2 a ha).2.2 ht).2.2 k e.symm
    · refine List.nodup_append.mpr ⟨h1, by simp, ?_⟩
      rintro a ha b hb rfl
      exact ((h2 a ha).2.2 ht).1 (List.mem_singleton.mp hb)
    · refine List.nodup_append.mpr ⟨h1, by simp, ?_⟩
      rintro a ha b hb rfl
      exact ((h2 a ha).2.2 ht).2.1 (List.mem_singleton.mp hb)
  · simp only [ht, if_false, List.mem_singleton, forall_eq]
    refine ⟨List.nodup_append.mpr ⟨h1, t1, ?_⟩, ?_⟩
    · rintro a ha b hb rfl
      exact (h2 a ha).1 hb
    · intro m hm
      refine ⟨(t3 m hm).1, ?_⟩
      intro p hp hps
      rcases List.mem_append.mp hps with hps | hps
      · exact (h2 p hps).2.1 m hm hp
      · exact ((t3 m hm).2 p hp).2 hps

/-- C52 (partial): no generic parameter is declared twice, if the enum has no parameter whose name
begins with two underscores.  Missing: `Coroutine` for an enum with a parameter called `R`, see
`C52_counterexample`. -/
theorem C52_partial (fs : Features) (d : Data) (toks : List Tok) (o : Derive.Output)
    (ho : expand fs d toks = .ok o) (i : Impl) (hi : i ∈ o.impls)
    (h1 : (d.params.map (·.name)).Nodup) (h2 : ∀ p ∈ d.params.map (·.name), ¬ Reserved p)
    (h3 : "Coroutine" ∈ i.names → "R" ∉ d.params.map (·.name)) : NoClash d i := by
  have ht := impl_table ho hi
  obtain ⟨⟨_, t2⟩, t3⟩ := table_reserved i ht
  refine noClash_of ht h1 ?_
  intro p hp
  refine ⟨?_, ?_, ?_⟩
  · intro hm
    rcases t2 p hm with h | ⟨h, rfl⟩
    · exact h2 p hp h
    · exact h3 (by simp [h]) hp
  · intro m hm hpm
    exact h2 p hp ((t3 m hm).2 p hpm).1
  · intro _
    refine ⟨?_, ?_, ?_⟩
    · rintro rfl; exact h2 _ hp (by decide)
    · rintro rfl; exact h2 _ hp (by decide)
    · rintro k rfl; exact h2 _ hp (reserved_E k)

/-- The hypotheses are met by `enum Enum<A, B>`. -/
example : (Ex.twoParams.params.map (·.name)).Nodup ∧
    (∀ p ∈ Ex.twoParams.params.map (·.name), ¬ Reserved p) ∧
    "R" ∉ Ex.twoParams.params.map (·.name) := by decide +kernel

namespace Ex

/-- `enum Enum<R, S> { A(R), B(S) }` -/
def paramR : Data :=
  { ident := "Enum", params := [{ toks := ["R"] }, { toks := ["S"] }],
    variants := [("A", ["R"]), ("B", ["S"])] }

end Ex

/-- C52 fails for `Coroutine`: its parameter is called `R`, so an enum with a parameter of that
name gets an implementation declaring `R` twice. -/
theorem C52_counterexample : ∃ fs d toks o, expand fs d toks = .ok o ∧
    (d.params.map (·.name)).Nodup ∧ (∀ p ∈ d.params.map (·.name), ¬ Reserved p) ∧
    ∃ i ∈ o.impls, ¬ NoClash d i := by
  obtain ⟨o, h, hp⟩ := Ex.of_derives (fs := Ex.all) (d := Ex.paramR)
    (ps := [Ex.tr ["Coroutine"]])
    (p := fun o => o.impls.any fun i => (implParams Ex.paramR i).any fun ps => ps == ["R", "S", "R"])
    (by decide +kernel)
  refine ⟨Ex.all, Ex.paramR, _, o, h, by decide +kernel, by decide +kernel, ?_⟩
  obtain ⟨i, hi, hp⟩ := List.any_eq_true.mp hp
  obtain ⟨ps, hps, hq⟩ := List.any_eq_true.mp hp
  refine ⟨i, hi, fun hc => ?_⟩
  have := (hc ps hps).1
  rw [beq_iff_eq.mp hq] at this
  revert this
  decide

theorem table_notVariant : ∀ i ∈ table, (∀ p ∈ i.params, p.toList.take 3 ≠ ['_', '_', 'V']) ∧
    ∀ m ∈ i.generics, ∀ p ∈ m.2, p.toList.take 3 ≠ ['_', '_', 'V'] := by decide +kernel

/-- C52 for the enums `#[auto_enum]` generates: no generic parameter is declared twice, whatever
traits are requested. -/
theorem C52_generated (env : Env) (fuel h : Nat) (atoks : List Tok) (input : Input) (n out : Node)
    (hin : input = .stmt n ∨ input = .expr n) (hrun : autoEnum env fuel h atoks input = .code out)
    (e : GenEnum) (he : e ∈ enums out) (hnew : e ∉ enums n) (fs : Features) (toks : List Tok)
    (o : Derive.Output) (ho : expand fs e.data toks = .ok o) (i : Impl) (hi : i ∈ o.impls) :
    NoClash e.data i := by
  have hw := ((C02_generated_enums env fuel h atoks input n out hin hrun e he).resolve_left hnew).1
  obtain ⟨_, k, _, hg, _⟩ := hw
  have ht := impl_table ho hi
  have hv : ∀ j : Nat, ("__Variant" ++ toString j).toList.take 3 = ['_', '_', 'V'] := by
    intro j; simp [String.toList_append]
  have hnames : e.data.params.map (·.name) = (List.range k).map fun j => "__Variant" ++ toString j := by
    have hname : ∀ g : String, Param.name { toks := [g] } = g := by
      intro g
      unfold Param.name
      split
      · rename_i heq
        cases heq
      · rename_i heq
        cases heq
        rfl
      · rename_i heq; cases heq
    simp only [GenEnum.data, hg, variantNames, List.map_map]
    apply List.map_congr_left
    intro j _
    exact hname ("__Variant" ++ toString j)
  refine noClash_of ht ?_ ?_
  · rw [hnames]
    exact List.Pairwise.map _ (fun _ _ h e => h (prefix_inj e)) List.nodup_range
  · intro p hp
    rw [hnames] at hp
    obtain ⟨j, _, rfl⟩ := List.mem_map.mp hp
    refine ⟨fun hm => (table_notVariant i ht).1 _ hm (hv j),
      fun m hm hpm => (table_notVariant i ht).2 m hm _ hpm (hv j), fun _ => ⟨?_, ?_, ?_⟩⟩
    · intro hc
      have := hv j
      rw [hc] at this
      revert this; decide
    · intro hc
      have := hv j
      rw [hc] at this
      revert this; decide
    · intro k hc
      have := hv j
      rw [hc] at this
      simp [String.toList_append] at this

/-! ## C53 -/

/-- C53: if an implemented trait has a method with the receiver `Pin<&mut Self>`, the enum is given
an implementation of `Unpin`, and it applies exactly if the types of all variants are `Unpin`. -/
theorem C53 (T : Typing Ty) (fs : Features) (d : Data) (toks : List Tok) (o : Derive.Output)
    (ho : expand fs d toks = .ok o) (hd : d.variants ≠ []) (i : Impl) (hi : i ∈ o.impls)
    (hp : usesPin i) :
    ∃ bs, (headers d o).filter (fun e => e.1 = "::core::marker::Unpin") =
        [("::core::marker::Unpin", bs)] ∧
      (T.Applies bs ↔ ∀ ty ∈ T.payloads d, T.impls ty "::core::marker::Unpin" []) := by
  have hg := (C36 fs d toks o ho).mpr ⟨i, hi, hp⟩
  refine ⟨bounds d unpinImpl, ?_, ?_⟩
  · simp only [headers, hg, if_true, List.filter_append]
    rw [List.filter_eq_nil_iff.mpr]
    · rfl
    · intro e he
      obtain ⟨j, hj, rfl⟩ := List.mem_map.mp he
      have key : ∀ j ∈ table, j.trait ≠ "::core::marker::Unpin" := by decide +kernel
      simpa using key j (impl_table ho hj)
  · have ha : agreesWith "Unpin" { path := "::core::marker::Unpin" } unpinImpl = true := by
      decide +kernel
    rw [bounds_iff T ha hd]
    constructor
    · exact fun h => h.1.impls
    · exact fun h => ⟨⟨h, fun _ _ _ _ _ ha => absurd ha List.not_mem_nil⟩,
        fun hc => absurd hc (by decide)⟩

/-- `Future` has such a method. -/
example : ∃ o, expand Ex.all Ex.twoParams (Ex.toks [Ex.tr ["Future"]]) = .ok o ∧
    (o.impls.any fun i => i.manual.any (·.sig.recv == .pin)) = true :=
  Ex.of_derives (by decide +kernel)

end AutoEnums
