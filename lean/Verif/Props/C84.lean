import Verif.Spec.NestTypes
import Verif.Props.C49
import Verif.Props.C83

/-! # C84: enums in enums implement a trait exactly if the innermost types do, alike -/

namespace AutoEnums

open Spec Derive

variable {Ty : Type}

namespace NestTypes

variable {T : Typing Ty} {E : List String → Option Data} {i : Impl} {t : TraitDecl}

/-- A type has a type inside. -/
theorem leaf_exists (h : Enums T E i t) (ty : List String) : ∃ l, Leaf E ty l := by
  obtain ⟨size, hsz⟩ := h.finite
  suffices ∀ n ty, size ty < n → ∃ l, Leaf E ty l from this _ ty (Nat.lt_succ_self _)
  intro n
  induction n with
  | zero => intro ty hn; omega
  | succ n ih =>
    intro ty hn
    cases hE : E ty with
    | none => exact ⟨ty, .self hE⟩
    | some d =>
      obtain ⟨⟨v, ty'⟩, vs, hv⟩ := List.exists_cons_of_ne_nil (h.variants ty d hE)
      have hm : (v, ty') ∈ d.variants := by rw [hv]; simp
      obtain ⟨l, hl⟩ := ih ty' (by have := hsz ty d v ty' hE hm; omega)
      exact ⟨l, .variant hE hm hl⟩

end NestTypes

/-- C84: a type that may be an enum, in enums to any depth, implements a derived trait exactly if all the types
inside do, with the same associated types, which then are those of the type itself. -/
theorem C84 (T : Typing Ty) (E : List String → Option Data) (i : Impl) (hi : i ∈ table) (s : String)
    (hs : s ∈ i.names) (herr : s ≠ "Error") (t : TraitDecl) (ht : (s, t) ∈ declarations) (h : Enums T E i t)
    (ty : List String) :
    (T.impls (T.denote ty) t.path (T.args i.args) ↔
      (∀ l, Leaf E ty l → T.impls (T.denote l) t.path (T.args i.args)) ∧
      ∀ l l', Leaf E ty l → Leaf E ty l' → ∀ a ∈ t.assoc,
        T.assoc (T.denote l) a.1 (T.args i.args) a.2 = T.assoc (T.denote l') a.1 (T.args i.args) a.2) ∧
    (T.impls (T.denote ty) t.path (T.args i.args) → ∀ l, Leaf E ty l → ∀ a ∈ t.assoc,
      T.assoc (T.denote ty) a.1 (T.args i.args) a.2 = T.assoc (T.denote l) a.1 (T.args i.args) a.2) := by
  have ha := agrees_of hi hs ht
  obtain ⟨size, hsz⟩ := h.finite
  generalize hn : size ty + 1 = n
  replace hn : size ty < n := by omega
  induction n generalizing ty with
  | zero => omega
  | succ n ih =>
    cases hE : E ty with
    | none =>
      have hl : ∀ l, Leaf E ty l → l = ty := by
        intro l hl
        cases hl with
        | self => rfl
        | variant h' => rw [hE] at h'; cases h'
      refine ⟨⟨fun himp => ⟨fun l h' => hl l h' ▸ himp, fun l l' h1 h2 a _ => by rw [hl l h1, hl l' h2]⟩,
        fun hu => hu.1 ty (.self hE)⟩, fun _ l h' a _ => by rw [hl l h']⟩
    | some d =>
      have IH := fun v ty' hv => ih ty' (by have := hsz ty d v ty' hE hv; omega)
      have hmem : ∀ x, x ∈ T.payloads d ↔ ∃ v ty', (v, ty') ∈ d.variants ∧ T.denote ty' = x := by
        intro x
        simp only [Typing.payloads, List.mem_map, Prod.exists]
      have hiff : T.impls (T.denote ty) t.path (T.args i.args) ↔ T.Uniform t (T.args i.args) (T.payloads d) := by
        rw [h.impls ty d hE, bounds_iff T ha (h.variants ty d hE)]
        exact ⟨fun g => g.1, fun g => ⟨g, fun e => absurd e herr⟩⟩
      have hin : ∀ l, Leaf E ty l → ∃ v ty', (v, ty') ∈ d.variants ∧ Leaf E ty' l := by
        intro l hl
        cases hl with
        | self h' => rw [hE] at h'; cases h'
        | variant h' hv hl => rw [hE] at h'; cases h'; exact ⟨_, _, hv, hl⟩
      have hassoc : T.impls (T.denote ty) t.path (T.args i.args) → ∀ l, Leaf E ty l → ∀ a ∈ t.assoc,
          T.assoc (T.denote ty) a.1 (T.args i.args) a.2 = T.assoc (T.denote l) a.1 (T.args i.args) a.2 := by
        intro himp l hl a hat
        obtain ⟨v, ty', hv, hl'⟩ := hin l hl
        obtain ⟨⟨w, ty''⟩, vs, hw⟩ := List.exists_cons_of_ne_nil (h.variants ty d hE)
        rw [h.assoc ty d hE himp w ty'' vs hw a hat, (hiff.mp himp).assoc _ ((hmem _).mpr ⟨w, ty'', by simp [hw], rfl⟩) _
          ((hmem _).mpr ⟨v, ty', hv, rfl⟩) a hat]
        exact (IH v ty' hv).2 ((hiff.mp himp).impls _ ((hmem _).mpr ⟨v, ty', hv, rfl⟩)) l hl' a hat
      refine ⟨⟨fun himp => ⟨fun l hl => ?_, fun l l' h1 h2 a hat => ?_⟩, fun hu => hiff.mpr ⟨?_, ?_⟩⟩, hassoc⟩
      · obtain ⟨v, ty', hv, hl'⟩ := hin l hl
        exact ((IH v ty' hv).1.mp ((hiff.mp himp).impls _ ((hmem _).mpr ⟨v, ty', hv, rfl⟩))).1 l hl'
      · rw [← hassoc himp l h1 a hat, ← hassoc himp l' h2 a hat]
      · intro x hx
        obtain ⟨v, ty', hv, rfl⟩ := (hmem x).mp hx
        exact (IH v ty' hv).1.mpr ⟨fun l hl => hu.1 l (.variant hE hv hl),
          fun l l' h1 h2 => hu.2 l l' (.variant hE hv h1) (.variant hE hv h2)⟩
      · have himp : ∀ v ty', (v, ty') ∈ d.variants → T.impls (T.denote ty') t.path (T.args i.args) :=
          fun v ty' hv => (IH v ty' hv).1.mpr ⟨fun l hl => hu.1 l (.variant hE hv hl),
            fun l l' h1 h2 => hu.2 l l' (.variant hE hv h1) (.variant hE hv h2)⟩
        intro x hx y hy a hat
        obtain ⟨v, ty', hv, rfl⟩ := (hmem x).mp hx
        obtain ⟨w, ty'', hw, rfl⟩ := (hmem y).mp hy
        obtain ⟨l, hl⟩ := NestTypes.leaf_exists h ty'
        obtain ⟨l', hl'⟩ := NestTypes.leaf_exists h ty''
        rw [(IH v ty' hv).2 (himp v ty' hv) l hl a hat, (IH w ty'' hw).2 (himp w ty'' hw) l' hl' a hat]
        exact hu.2 l l' (.variant hE hv hl) (.variant hE hw hl') a hat

/-! ## Examples -/

namespace Ex

/-- `enum Outer { A(A), B(Inner) }` and `enum Inner { A(A), B(B) }`. -/
def deepEnums (ty : List String) : Option Data :=
  if ty = ["Outer"] then some outer else if ty = ["Inner"] then some twoParams else none

/-- `B` implements all traits; `A` and the enums do if `p`. -/
def deepTyping (p : Prop) : Typing (List String) where
  denote ty := ty
  impls ty _ _ := ty = ["B"] ∨ p
  assoc _ _ _ _ := ["u8"]
  static _ := True

theorem deepEnums_eq {ty : List String} {d : Data} (h : deepEnums ty = some d) :
    ty = ["Outer"] ∧ d = outer ∨ ty = ["Inner"] ∧ d = twoParams := by
  unfold deepEnums at h
  split at h
  · cases h; exact .inl ⟨by assumption, rfl⟩
  · split at h
    · cases h; exact .inr ⟨by assumption, rfl⟩
    · cases h

theorem next_table : next.impl ∈ table ∧ "Iterator" ∈ next.impl.names := by decide +kernel

/-- The hypotheses of C84 hold for `Iterator`. -/
theorem deepTyping_enums (p : Prop) (t : TraitDecl) (ht : ("Iterator", t) ∈ declarations) :
    Enums (deepTyping p) deepEnums next.impl t where
  variants ty d h := by rcases deepEnums_eq h with ⟨_, rfl⟩ | ⟨_, rfl⟩ <;> decide
  finite := by
    refine ⟨fun ty => if ty = ["Outer"] then 2 else if ty = ["Inner"] then 1 else 0, fun ty d v ty' h hv => ?_⟩
    rcases deepEnums_eq h with ⟨rfl, rfl⟩ | ⟨rfl, rfl⟩ <;>
      simp only [outer, twoParams, List.mem_cons, Prod.mk.injEq, List.not_mem_nil, or_false] at hv <;>
      rcases hv with ⟨_, rfl⟩ | ⟨_, rfl⟩ <;> decide
  impls ty d h := by
    have hv : d.variants ≠ [] := by rcases deepEnums_eq h with ⟨_, rfl⟩ | ⟨_, rfl⟩ <;> decide
    have hA : ["A"] ∈ (deepTyping p).payloads d := by
      rcases deepEnums_eq h with ⟨_, rfl⟩ | ⟨_, rfl⟩ <;> simp [Typing.payloads, deepTyping, outer, twoParams]
    have hty : ty ≠ ["B"] := by rcases deepEnums_eq h with ⟨rfl, _⟩ | ⟨rfl, _⟩ <;> decide
    rw [bounds_iff _ (agrees_of next_table.1 next_table.2 ht) hv]
    constructor
    · rintro (hB | hp)
      · exact absurd hB hty
      · exact ⟨⟨fun _ _ => .inr hp, fun _ _ _ _ _ _ => rfl⟩, fun e => absurd e (by decide)⟩
    · intro hu
      exact .inr ((hu.1.impls _ hA).resolve_left (by decide))
  assoc _ _ _ _ _ _ _ _ _ _ := rfl

end Ex

/-- The types inside `Outer` are `A`, twice, and `B`. -/
example : Leaf Ex.deepEnums ["Outer"] ["A"] ∧ Leaf Ex.deepEnums ["Outer"] ["B"] ∧
    ∃ e ∈ declarations, e.1 = "Iterator" ∧ e.2.assoc ≠ [] := by
  refine ⟨.variant (d := Ex.outer) (v := "A") (by decide) (by decide) (.self (by decide)),
    .variant (d := Ex.outer) (v := "B") (ty' := ["Inner"]) (by decide) (by decide)
      (.variant (d := Ex.twoParams) (v := "B") (by decide) (by decide) (.self (by decide))), by decide +kernel⟩

end AutoEnums
