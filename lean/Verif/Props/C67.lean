import Verif.Spec.Members
import Verif.Props.C39

/-! # C67: implementations are complete and have only methods of the trait -/

namespace AutoEnums

open Derive Spec

/-- The number of type parameters of a method of an implementation. -/
def Spec.genericsOf (i : Impl) (name : String) : Nat := ((i.generics.lookup name).getD []).length

/-- The method is one that the trait declares, with the same receiver and as many parameters. -/
def conforms (ms : List Member) (i : Impl) (s : Sig) : Bool :=
  ms.any fun x => x.name == s.name && x.recv == s.recv && x.params == s.params.length &&
    x.generics == genericsOf i s.name

/-- The record of the implementation has the methods it must have and no others. -/
def complete (ms : List Member) (i : Impl) : Bool :=
  (sigs i).all (conforms ms i) && (ms.all fun x => !x.required || (sigs i).any fun s => s.name == x.name) &&
  decide ((sigs i).map (·.name)).Nodup && (sigs i).all fun s => decide s.params.Nodup && !s.params.contains "x"

theorem table_complete : (table.all fun i => members.all fun e =>
    !i.names.contains e.1 || complete e.2 i) = true := by decide +kernel

/-- The methods of an implementation are those of its record. -/
theorem methods_sigs (d : Data) (i : Impl) :
    (methods d i).map (fun m => (⟨m.name, m.recv, m.params⟩ : Sig)) = sigs i := by
  simp only [methods, sigs, List.map_append, List.map_map]
  congr 1
  rw [← List.map_id i.forwarded, List.map_map]
  rfl

theorem methods_arms (d : Data) (i : Impl) {m : Method} (hm : m ∈ methods d i) :
    m.arms.map (·.variant) = d.variants.map (·.1) := by
  simp only [methods, List.mem_append, List.mem_map] at hm
  rcases hm with ⟨s, _, rfl⟩ | ⟨s, _, rfl⟩ <;> simp [genForwarded, genManual, Function.comp_def]

/-- C67: an implementation generated by `enum_derive` has no methods but those that the requested trait declares,
each once and with the declared receiver, number of parameters and number of type parameters; it has all methods
that the trait does not implement itself; and every method has one arm for every variant of the enum. -/
theorem C67 (fs : Features) (d : Data) (toks : List Tok) (o : Derive.Output) (ho : expand fs d toks = .ok o)
    (i : Impl) (hi : i ∈ o.impls) (s : String) (hs : s ∈ i.names) (ms : List Member) (hm : (s, ms) ∈ members) :
    (∀ m ∈ methods d i, ∃ x ∈ ms, x.name = m.name ∧ x.recv = m.recv ∧ x.params = m.params.length ∧
      x.generics = genericsOf i m.name) ∧
    (∀ x ∈ ms, x.required = true → ∃ m ∈ methods d i, m.name = x.name) ∧
    ((methods d i).map (·.name)).Nodup ∧
    ∀ m ∈ methods d i, m.params.Nodup ∧ m.arms.map (·.variant) = d.variants.map (·.1) := by
  have h := List.all_eq_true.1 (List.all_eq_true.1 table_complete i (expand_table ho i hi)) _ hm
  have hc : i.names.contains s = true := by simpa using hs
  simp only [hc, Bool.not_true, Bool.false_or, complete, Bool.and_eq_true, List.all_eq_true, decide_eq_true_eq,
    conforms, List.any_eq_true, beq_iff_eq, Bool.or_eq_true, Bool.not_eq_true'] at h
  obtain ⟨⟨⟨h1, h2⟩, h3⟩, h4⟩ := h
  have hsig : ∀ m ∈ methods d i, (⟨m.name, m.recv, m.params⟩ : Sig) ∈ sigs i := by
    intro m hm
    rw [← methods_sigs d i]
    exact List.mem_map_of_mem (f := fun m : Method => (⟨m.name, m.recv, m.params⟩ : Sig)) hm
  refine ⟨fun m hm => ?_, fun x hx hr => ?_, ?_, fun m hm => ⟨(h4 _ (hsig m hm)).1, methods_arms d i hm⟩⟩
  · obtain ⟨x, hx, ⟨⟨g1, g2⟩, g3⟩, g4⟩ := h1 _ (hsig m hm)
    exact ⟨x, hx, g1, g2, g3, g4⟩
  · rcases h2 x hx with h | ⟨t, ht, hn⟩
    · rw [hr] at h; cases h
    · rw [← methods_sigs d i, List.mem_map] at ht
      obtain ⟨m, hm, rfl⟩ := ht
      exact ⟨m, hm, hn⟩
  · rw [← methods_sigs d i, List.map_map] at h3
    exact h3

/-- Every supported trait has an entry in the specification. -/
theorem C67_declared : ∀ e ∈ documented, e.1 ≠ "Transpose" → ∃ ms, (e.1, ms) ∈ members := by
  have h : (documented.all fun e => e.1 == "Transpose" || members.any fun m => m.1 == e.1) = true := by
    decide +kernel
  intro e he hne
  have := List.all_eq_true.1 h e he
  simp only [Bool.or_eq_true, beq_iff_eq, List.any_eq_true] at this
  rcases this with h | ⟨m, hm, h⟩
  · exact absurd h hne
  · exact ⟨m.2, h ▸ hm⟩

/-- `#[enum_derive(DoubleEndedIterator, Future)]` meets the hypotheses for three implementations, with thirteen, four
and one methods. -/
example : ∃ o, expand Ex.default Ex.twoParams (Ex.toks [Ex.tr ["DoubleEndedIterator"], Ex.tr ["Future"]]) = .ok o ∧
    (o.impls.map (fun i => (methods Ex.twoParams i).length) == [13, 4, 1] &&
      o.impls.all fun i => i.names.any fun s => members.any fun e => e.1 == s) = true :=
  Ex.of_derives (by decide +kernel)

end AutoEnums
