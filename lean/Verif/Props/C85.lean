import Verif.Spec.NestPin
import Verif.Props.C84

/-! # C85: enums in enums are `Unpin` exactly if the innermost types are -/

namespace AutoEnums

open Spec Derive

variable {Ty : Type}

namespace NestTypes

/-- The implementations of a trait, if there is only one. -/
theorem mem_headers {d : Data} {o : Derive.Output} {s : String} {bs : List Bound}
    (h : (headers d o).filter (fun e => e.1 = s) = [(s, bs)]) (bs' : List Bound) :
    (s, bs') ∈ headers d o ↔ bs' = bs := by
  have := List.mem_filter (p := fun e => decide (e.1 = s)) (x := (s, bs')) (as := headers d o)
  rw [h] at this
  simpa using this.symm

end NestTypes

/-- C85: a type that may be an enum with pinned methods, in enums to any depth, is `Unpin` exactly if all the types
inside are. -/
theorem C85 (T : Typing Ty) (E : List String → Option Data) (fs : Features) (h : PinnedEnums T E fs)
    (ty : List String) :
    T.impls (T.denote ty) "::core::marker::Unpin" [] ↔
      ∀ l, Leaf E ty l → T.impls (T.denote l) "::core::marker::Unpin" [] := by
  obtain ⟨size, hsz⟩ := h.finite
  generalize hn : size ty + 1 = n
  replace hn : size ty < n := by omega
  induction n generalizing ty with
  | zero => omega
  | succ n ih =>
    cases hE : E ty with
    | none =>
      constructor
      · intro himp l hl
        cases hl with
        | self => exact himp
        | variant h' => rw [hE] at h'; cases h'
      · exact fun hu => hu ty (.self hE)
    | some d =>
      obtain ⟨toks, o, ho, ⟨i, hi, hp⟩, hiff⟩ := h.unpin ty d hE
      obtain ⟨bs, hbs, happ⟩ := C53 T fs d toks o ho (h.variants ty d hE) i hi hp
      have hmem := NestTypes.mem_headers hbs
      simp only [hiff, hmem, exists_eq_left, happ, Typing.payloads, List.mem_map, Prod.exists]
      constructor
      · intro hall l hl
        cases hl with
        | self h' => rw [hE] at h'; cases h'
        | variant h' hv hl =>
          rw [hE] at h'
          cases h'
          exact (ih _ (by have := hsz ty d _ _ hE hv; omega)).mp (hall _ ⟨_, _, hv, rfl⟩) l hl
      · rintro hu _ ⟨v, ty', hv, rfl⟩
        exact (ih ty' (by have := hsz ty d v ty' hE hv; omega)).mpr fun l hl => hu l (.variant hE hv hl)

/-! ## Examples -/

namespace Ex

theorem deep_future {ty : List String} {d : Data} (h : deepEnums ty = some d) :
    ∃ o, expand all d (toks [tr ["Future"]]) = .ok o ∧
      (o.impls.any fun i => i.manual.any (·.sig.recv == .pin)) = true := by
  rcases deepEnums_eq h with ⟨_, rfl⟩ | ⟨_, rfl⟩
  · exact of_derives (by decide +kernel)
  · exact of_derives (by decide +kernel)

/-- The hypotheses of C85 hold for the enums `Outer` and `Inner` with `Future`, whether `A` is `Unpin` or not. -/
theorem deepTyping_pinned (p : Prop) : PinnedEnums (deepTyping p) deepEnums all where
  variants ty d h := by rcases deepEnums_eq h with ⟨_, rfl⟩ | ⟨_, rfl⟩ <;> decide
  finite := by
    refine ⟨fun ty => if ty = ["Outer"] then 2 else if ty = ["Inner"] then 1 else 0, fun ty d v ty' h hv => ?_⟩
    rcases deepEnums_eq h with ⟨rfl, rfl⟩ | ⟨rfl, rfl⟩ <;>
      simp only [outer, twoParams, List.mem_cons, Prod.mk.injEq, List.not_mem_nil, or_false] at hv <;>
      rcases hv with ⟨_, rfl⟩ | ⟨_, rfl⟩ <;> decide
  unpin ty d h := by
    have hv : d.variants ≠ [] := by rcases deepEnums_eq h with ⟨_, rfl⟩ | ⟨_, rfl⟩ <;> decide
    have hA : ["A"] ∈ (deepTyping p).payloads d := by
      rcases deepEnums_eq h with ⟨_, rfl⟩ | ⟨_, rfl⟩ <;> simp [Typing.payloads, deepTyping, outer, twoParams]
    have hty : ty ≠ ["B"] := by rcases deepEnums_eq h with ⟨rfl, _⟩ | ⟨rfl, _⟩ <;> decide
    obtain ⟨o, ho, hpin⟩ := deep_future h
    have hu : ∃ i ∈ o.impls, usesPin i := by
      simp only [List.any_eq_true, beq_iff_eq] at hpin
      obtain ⟨i, hi, m, hm, hr⟩ := hpin
      exact ⟨i, hi, .inr ⟨m, hm, hr⟩⟩
    refine ⟨_, o, ho, hu, ?_⟩
    obtain ⟨i, hi, hp⟩ := hu
    obtain ⟨bs, hbs, happ⟩ := C53 (deepTyping p) all d _ o ho hv i hi hp
    have hmem := NestTypes.mem_headers hbs
    simp only [hmem, exists_eq_left, happ]
    constructor
    · rintro (hB | hp)
      · exact absurd hB hty
      · exact fun _ _ => .inr hp
    · exact fun hall => .inr ((hall _ hA).resolve_left (by decide))

end Ex

/-- `Outer` is `Unpin` exactly if `A`, which is inside of both enums, is. -/
example (p : Prop) : (Ex.deepTyping p).impls ["Outer"] "::core::marker::Unpin" [] ↔ p := by
  have h := C85 (Ex.deepTyping p) Ex.deepEnums Ex.all (Ex.deepTyping_pinned p) ["Outer"]
  refine h.trans ⟨fun hu => ?_, fun hp _ _ => .inr hp⟩
  exact (hu ["A"] (.variant (d := Ex.outer) (v := "A") (by decide) (by decide) (.self (by decide)))).resolve_left
    fun e => absurd (show ["A"] = ["B"] from e) (by decide)

end AutoEnums
