import Verif.Props.C39
import Verif.Props.C45
import Verif.Props.C49

/-! # C80: the order of the variants and further variants do not matter -/

namespace AutoEnums

open Derive Spec

namespace Variants

theorem emit_unique {fs : Features} {d d' : Data} : ∀ {l : List (String × Option Path)} {o o' : Derive.Output},
    emit fs d l = .ok o → emit fs d' l = .ok o' → o' = o
  | [], o, o', h, h' => by
    simp only [emit] at h h'
    cases h; cases h'; rfl
  | (s, arg) :: rest, o, o', h, h' => by
    have key : ∀ {f : Derive.Output → Derive.Output}, (emit fs d rest).map f = .ok o →
        (emit fs d' rest).map f = .ok o' → o' = o := by
      intro f h h'
      cases hr : emit fs d rest with
      | error e => rw [hr] at h; cases h
      | ok p =>
        cases hr' : emit fs d' rest with
        | error e => rw [hr'] at h'; cases h'
        | ok p' =>
          rw [hr] at h
          rw [hr', emit_unique hr hr'] at h'
          cases h; cases h'; rfl
    simp only [emit] at h h'
    split at h
    · rename_i i hg
      rw [hg] at h'
      simp only at h'
      split at h
      · split at h'
        · exact key h h'
        · cases h'
      · cases h
    · rename_i hg
      rw [hg] at h'
      exact key h h'
    · rename_i hg
      rw [hg] at h'
      exact emit_unique h h'

variable {α μ : Type}

/-- A method that matches on the variants does the same for the variants of a larger enum. -/
theorem invoke_more (W : World α μ) {d d' : Data} (hsub : ∀ v ∈ d.variants, v ∈ d'.variants) (hd : Distinct d')
    {m m' : Method} {f : String × List String → Rhs} (hm : m.arms = d.variants.map fun v => ⟨v.1, f v⟩)
    (hm' : m'.arms = d'.variants.map fun v => ⟨v.1, f v⟩) (hr : m'.recv = m.recv) (hp : m'.params = m.params)
    {self : Val α} {args : List (Val α)} {st : Store μ} {r : Store μ × Val α}
    (h : invoke W m self args st = some r) : invoke W m' self args st = some r := by
  unfold invoke at h ⊢
  rw [hr, hp]
  split at h
  · rename_i hl
    rw [if_pos hl]
    cases hx : scrutinee W st.tags m.recv self with
    | none => rw [hx] at h; cases h
    | some vx =>
      obtain ⟨v, x⟩ := vx
      rw [hx] at h
      dsimp only at h ⊢
      cases ha : m.arms.find? fun a => a.variant == v with
      | none => rw [ha] at h; cases h
      | some arm =>
        rw [ha] at h
        dsimp only at h
        have hmem := List.mem_of_find?_eq_some ha
        have hv := List.find?_some ha
        rw [hm] at hmem
        obtain ⟨w, hw, rfl⟩ := List.mem_map.mp hmem
        simp only [beq_iff_eq] at hv
        subst hv
        rw [hm', find_arm hd (hsub w hw) f]
        exact h
  · cases h

/-- The method for a signature or for a hand-written method. -/
def gen (d : Data) (i : Impl) : Sig ⊕ Manual → Method
  | .inl s => genForwarded d i s
  | .inr m => genManual d i m

theorem methods_eq (d : Data) (i : Impl) :
    methods d i = (i.forwarded.map Sum.inl ++ i.manual.map Sum.inr).map (gen d i) := by
  rw [List.map_append, List.map_map, List.map_map]
  rfl

theorem uniform_less {Ty : Type} {T : Typing Ty} {t : TraitDecl} {args tys tys' : List Ty}
    (hsub : ∀ ty ∈ tys, ty ∈ tys') (h : T.Uniform t args tys') : T.Uniform t args tys :=
  ⟨fun ty h1 => h.impls ty (hsub ty h1), fun ty h1 ty' h2 => h.assoc ty (hsub ty h1) ty' (hsub ty' h2)⟩

/-- All implementations but `Transpose` are of declared traits. -/
theorem table_declared : (table.all fun i => i.path == "ty_impls::transpose" ||
    i.names.any fun s => declarations.any fun t => t.1 == s) = true := by decide +kernel

theorem no_transpose {fs : Features} {d : Data} {toks : List Tok} {ps : List Path} (h : IsTraits toks ps)
    (ht : fs .transposeMethods = false ∨ ∀ p ∈ ps, spelling p ≠ "Transpose") {o : Derive.Output}
    (ho : expand fs d toks = .ok o) {i : Impl} (hi : i ∈ o.impls) :
    ∃ s ∈ i.names, ∃ t, (s, t) ∈ declarations := by
  have key : ∀ i ∈ table, i.path = "ty_impls::transpose" →
      i.names = ["Transpose"] ∧ i.feature = some .transposeMethods := by decide +kernel
  have keyd : ∀ a ∈ depArms, "Transpose" ∉ a.2.2 := by decide +kernel
  have hpath : i.path ≠ "ty_impls::transpose" := by
    intro hpath
    obtain ⟨s, hs, hg⟩ := (expand_impl h ho).mp hi
    obtain ⟨h1, h2, h3⟩ := getDerive_iff.mp hg
    obtain ⟨k1, k2⟩ := key i h1 hpath
    rw [k1, List.mem_singleton] at h3
    subst h3
    rcases ht with ht | ht
    · simp [Impl.enabled, cfg, k2, ht] at h2
    · obtain ⟨p, hp, hs | hs⟩ := hs
      · exact ht p hp hs.symm
      · obtain ⟨a, ha, _, _, hd⟩ := mem_depsOf.mp hs
        exact keyd a ha hd
  have := List.all_eq_true.mp table_declared i (impl_table ho hi)
  simp only [Bool.or_eq_true, beq_iff_eq, hpath, false_or, List.any_eq_true] at this
  obtain ⟨s, hs, ⟨s', t⟩, ht, rfl⟩ := this
  exact ⟨s', hs, t, ht⟩

end Variants

/-- **C80.** Let the second enum have all variants of the first one, in any order and possibly among others, and let
`Transpose` not be requested.  The same `#[enum_derive]` then generates the same implementations for both.  If an
implementation applies to the larger enum, it applies to the smaller one, with the same associated types.  And a
call of a method on the smaller enum does the same on the larger one. -/
theorem C80 {Ty α μ : Type} (T : Typing Ty) (W : World α μ) (fs : Features) (d d' : Data) (toks : List Tok)
    (ps : List Path) (h : IsTraits toks ps)
    (ht : fs .transposeMethods = false ∨ ∀ p ∈ ps, spelling p ≠ "Transpose")
    (hsub : ∀ v ∈ d.variants, v ∈ d'.variants) (hne : d.variants ≠ []) (hd : Distinct d') :
    ∃ o, expand fs d toks = .ok o ∧ expand fs d' toks = .ok o ∧ ∀ i ∈ o.impls,
      (T.Applies (bounds d' i) → T.Applies (bounds d i) ∧
        (assocTypes d i).map (fun a => (a.1, T.proj a.2)) = (assocTypes d' i).map fun a => (a.1, T.proj a.2)) ∧
      (methods d i).map (fun m => (m.name, m.recv, m.params)) =
        (methods d' i).map (fun m => (m.name, m.recv, m.params)) ∧
      ∀ (k : Nat) (m m' : Method), (methods d i)[k]? = some m → (methods d' i)[k]? = some m' →
        ∀ self args st r, invoke W m self args st = some r → invoke W m' self args st = some r := by
  obtain ⟨o, ho⟩ := C45_others fs d toks ps h ht
  obtain ⟨o', ho'⟩ := C45_others fs d' toks ps h ht
  have he : o' = o := by
    rw [expand_eq h] at ho ho'
    exact Variants.emit_unique ho ho'
  subst he
  have hne' : d'.variants ≠ [] := by
    obtain ⟨v, vs, hv⟩ := List.exists_cons_of_ne_nil hne
    exact List.ne_nil_of_mem (hsub v (by simp [hv]))
  have hpay : ∀ ty ∈ T.payloads d, ty ∈ T.payloads d' := by
    intro ty hty
    obtain ⟨v, hv, rfl⟩ := List.mem_map.mp hty
    exact List.mem_map.mpr ⟨v, hsub v hv, rfl⟩
  refine ⟨o', ho, ho', fun i hi => ⟨fun hap => ?_, ?_, ?_⟩⟩
  · obtain ⟨s, hs, t, htd⟩ := Variants.no_transpose h ht ho hi
    obtain ⟨-, -, c1⟩ := C49 T fs d toks o' ho hne i hi s hs t htd
    obtain ⟨-, -, c2⟩ := C49 T fs d' toks o' ho' hne' i hi s hs t htd
    obtain ⟨u1, u2⟩ := c2.mp hap
    have hap' := c1.mpr ⟨Variants.uniform_less hpay u1, fun e ty hty => u2 e ty (hpay ty hty)⟩
    refine ⟨hap', ?_⟩
    obtain ⟨n1, a1⟩ := C50 T fs d toks o' ho hne i hi s hs t htd
    obtain ⟨n2, a2⟩ := C50 T fs d' toks o' ho' hne' i hi s hs t htd
    obtain ⟨v, vs, hv⟩ := List.exists_cons_of_ne_nil hne
    have hv1 : T.denote v.2 ∈ T.payloads d := by simp [Typing.payloads, hv]
    have e1 : (assocTypes d i).map (fun a => (a.1, T.proj a.2)) =
        ((assocTypes d i).map (·.1)).map fun n => (n, T.assoc (T.denote v.2) t.path (T.args i.args) n) := by
      rw [List.map_map]
      exact List.map_congr_left fun a ha => by rw [a1 hap' a ha _ hv1]; rfl
    have e2 : (assocTypes d' i).map (fun a => (a.1, T.proj a.2)) =
        ((assocTypes d' i).map (·.1)).map fun n => (n, T.assoc (T.denote v.2) t.path (T.args i.args) n) := by
      rw [List.map_map]
      exact List.map_congr_left fun a ha => by rw [a2 hap a ha _ (hpay _ hv1)]; rfl
    rw [e1, e2, n1, n2]
  · rw [Variants.methods_eq, Variants.methods_eq, List.map_map, List.map_map]
    exact List.map_congr_left fun x _ => by cases x <;> rfl
  · intro k m m' hm hm' self args st r hr
    rw [Variants.methods_eq, List.getElem?_map] at hm hm'
    cases hx : (i.forwarded.map Sum.inl ++ i.manual.map Sum.inr)[k]? with
    | none => rw [hx] at hm; cases hm
    | some x =>
      rw [hx] at hm hm'
      cases hm; cases hm'
      cases x with
      | inl s =>
        exact Variants.invoke_more (m := Variants.gen d i (.inl s)) (m' := Variants.gen d' i (.inl s)) W hsub hd
          rfl rfl rfl rfl hr
      | inr s =>
        exact Variants.invoke_more (m := Variants.gen d i (.inr s)) (m' := Variants.gen d' i (.inr s)) W hsub hd
          rfl rfl rfl rfl hr

/-- C80 for another order of the variants: the implementations apply to the same types, with the same associated
types, and every call does the same. -/
theorem C80_order {Ty α μ : Type} (T : Typing Ty) (W : World α μ) (fs : Features) (d d' : Data) (toks : List Tok)
    (ps : List Path) (h : IsTraits toks ps)
    (ht : fs .transposeMethods = false ∨ ∀ p ∈ ps, spelling p ≠ "Transpose")
    (hp : d'.variants.Perm d.variants) (hne : d.variants ≠ []) (hd : Distinct d) :
    ∃ o, expand fs d toks = .ok o ∧ expand fs d' toks = .ok o ∧ ∀ i ∈ o.impls,
      (T.Applies (bounds d' i) ↔ T.Applies (bounds d i)) ∧
      (T.Applies (bounds d i) → (assocTypes d i).map (fun a => (a.1, T.proj a.2)) =
        (assocTypes d' i).map fun a => (a.1, T.proj a.2)) ∧
      ∀ (k : Nat) (m m' : Method), (methods d i)[k]? = some m → (methods d' i)[k]? = some m' →
        ∀ self args st, invoke W m' self args st = invoke W m self args st := by
  have hd' : Distinct d' := (hp.map _).nodup_iff.mpr hd
  have hne' : d'.variants ≠ [] := fun e => hne (by rw [e] at hp; exact hp.nil_eq.symm)
  obtain ⟨o, h1, h2, h3⟩ := C80 T W fs d d' toks ps h ht (fun v hv => hp.mem_iff.mpr hv) hne hd'
  obtain ⟨o', h1', h2', h3'⟩ := C80 T W fs d' d toks ps h ht (fun v hv => hp.mem_iff.mp hv) hne' hd
  rw [h1] at h2'
  cases h2'
  refine ⟨o, h1, h2, fun i hi => ⟨⟨fun a => ((h3 i hi).1 a).1, fun a => ((h3' i hi).1 a).1⟩,
    fun a => ((h3' i hi).1 a).2.symm, fun k m m' hm hm' self args st => ?_⟩⟩
  cases hr : invoke W m self args st with
  | some r => exact (h3 i hi).2.2 k m m' hm hm' self args st r hr
  | none =>
    cases hr' : invoke W m' self args st with
    | none => rfl
    | some r =>
      have := (h3' i hi).2.2 k m' m hm' hm self args st r hr'
      rw [hr] at this
      cases this

/-- `enum Enum<A, B> { B(B), C(C), A(A) }` -/
def Ex.moreVariants : Data :=
  { Ex.twoParams with variants := [("B", ["B"]), ("C", ["C"]), ("A", ["A"])] }

/-- `enum Enum<A, B> { B(B), A(A) }` -/
def Ex.swapped : Data := { Ex.twoParams with variants := [("B", ["B"]), ("A", ["A"])] }

/-- The hypotheses are met, and there are implementations with methods. -/
example : (∀ v ∈ Ex.twoParams.variants, v ∈ Ex.moreVariants.variants) ∧ Ex.twoParams.variants ≠ [] ∧
    Distinct Ex.moreVariants ∧ Ex.swapped.variants.Perm Ex.twoParams.variants ∧ Distinct Ex.twoParams ∧
    (∀ p ∈ [Ex.tr ["DoubleEndedIterator"], Ex.tr ["Future"]], spelling p ≠ "Transpose") ∧
    ∃ o, expand Ex.default Ex.twoParams (Ex.toks [Ex.tr ["DoubleEndedIterator"], Ex.tr ["Future"]]) = .ok o ∧
      (o.impls.map (fun i => (methods Ex.twoParams i).length) == [13, 4, 1]) = true :=
  ⟨by decide +kernel, by decide +kernel, by decide +kernel, by rw [← List.isPerm_iff]; decide +kernel,
    by decide +kernel, by decide +kernel, Ex.of_derives (by decide +kernel)⟩

/-- The types of `A` and `B` have the associated types `2`, the type of `C` has others. -/
def Ex.oddC : Typing Nat := { Ex.typing 2 with assoc := fun ty _ _ _ => if ty = 3 then 9 else 2 }

/-- An implementation may apply to the smaller enum only: here the third type has another `Item`. -/
example : Ex.oddC.Applies (bounds Ex.twoParams Ex.doubleEndedImpl) ∧
    ¬ Ex.oddC.Applies (bounds Ex.moreVariants Ex.doubleEndedImpl) := by
  refine ⟨(bounds_iff _ (s := "DoubleEndedIterator") (t := Ex.doubleEnded) (by decide +kernel) (by decide)).mpr
    ⟨⟨fun _ _ => trivial, by decide⟩, fun h => absurd h (by decide)⟩, ?_⟩
  intro h
  have := ((bounds_iff _ (s := "DoubleEndedIterator") (t := Ex.doubleEnded) (by decide +kernel) (by decide)).mp h).1.assoc
  revert this
  decide

/-- For `Transpose` the order matters: the variants must be in the order of the type parameters. -/
theorem C80_transpose :
    Ex.derives Ex.all Ex.twoParams [Ex.tr ["Transpose"]] (fun _ => true) = true ∧
    Ex.derives Ex.all Ex.swapped [Ex.tr ["Transpose"]] (fun _ => true) = false := by
  decide +kernel

end AutoEnums
