import Verif.Props.C57

/-! # C66: the expansion is well typed only if the source is -/

namespace AutoEnums

open Spec

/-- C66 for code without `#[nested]` and inner attributes, described syntactically, and without `?` where
`return`s are wrapped: if the expansion has the type of the enum, whatever the payloads of the variants may be, then
the code in which wrapping starts is well typed apart from the fact that the values of its branches (and of the
`return`s that are wrapped and the arguments of markers) may have any types; `#[never]` has no effect on this.  The rest of the typing rules, and the
code around, are arbitrary; the scope of the variables bound in the code ends with it. -/
theorem C66_partial {T Sc : Type} (R : Rules T Sc) (E : T) (P : Ident → T → Prop) (env : Env) (traits : List Path)
    (en : Ident) (m : String) (n out : Node) (h : Accepted env traits en m n out) (hs : Simple en m n)
    (hb : (jobOf en m n).branches = true)
    (hc : checkable (jobOf en m n) .result (startOf n) = true)
    (hq : (jobOf en m n).returns = true → asks (startOf n) = false)
    (Γ : Around T Sc) (hΓ : Γ.here.next = none) (hret : (jobOf en m n).returns = true → Γ.ret = .free)
    (hty : typed R ⟨en, E, P⟩ (counterpart n out)
      { Γ with ret := if (jobOf en m n).returns then .is E else Γ.ret } (.is E)) :
    typedIn R ⟨en, E, fun _ _ => False⟩ m (startOf n) Γ .free :=
  typed_source h hs hb hc hq E P hΓ hret hty

/-- Together with C57, for code without `#[never]`: the expansion has the type of the enum, for some choice of one payload type for each variant,
exactly if the source is well typed apart from the types of its branches. -/
theorem C66_exact_partial {T Sc : Type} (R : Rules T Sc) (hR : Infers R) (E : T) (env : Env) (traits : List Path)
    (en : Ident) (m : String) (n out : Node) (h : Accepted env traits en m n out) (hs : Simple en m n)
    (hb : (jobOf en m n).branches = true)
    (ht : typable (jobOf en m n) .result (startOf n) = true)
    (hc : checkable (jobOf en m n) .result (startOf n) = true)
    (hq : (jobOf en m n).returns = true → asks (startOf n) = false)
    (hv : ∀ l ∈ visible (startOf n), carries l.1 = true → marked "never" l.2 = false)
    (Γ : Around T Sc) (hΓ : Γ.here.next = none) (hret : (jobOf en m n).returns = true → Γ.ret = .free) :
    (∃ σ : Ident → T, typed R ⟨en, E, fun x t => t = σ x⟩ (counterpart n out)
      { Γ with ret := if (jobOf en m n).returns then .is E else Γ.ret } (.is E)) ↔
    typedIn R ⟨en, E, fun _ _ => False⟩ m (startOf n) Γ .free :=
  ⟨fun ⟨_, h1⟩ => C66_partial R E _ env traits en m n out h hs hb hc hq Γ hΓ hret h1,
    fun h1 => C57_partial R hR E env traits en m n out h hs hb ht Γ hret (by rw [typedAs_calm _ hv]; exact h1)⟩

/-- Without markers, the rules for the code before are those for the code after. -/
theorem C66_unmarked_partial {T Sc : Type} (R : Rules T Sc) (E : T) (P : Ident → T → Prop) (env : Env) (traits : List Path)
    (en : Ident) (m : String) (n out : Node) (h : Accepted env traits en m n out) (hs : Simple en m n)
    (hb : (jobOf en m n).branches = true)
    (hc : checkable (jobOf en m n) .result (startOf n) = true)
    (hq : (jobOf en m n).returns = true → asks (startOf n) = false)
    (hm : ∀ l ∈ visible (startOf n), callsMacro m l.1 = false) (hn : hasNested [startOf n] = false)
    (Γ : Around T Sc) (hΓ : Γ.here.next = none) (hret : (jobOf en m n).returns = true → Γ.ret = .free)
    (hty : typed R ⟨en, E, P⟩ (counterpart n out)
      { Γ with ret := if (jobOf en m n).returns then .is E else Γ.ret } (.is E)) :
    typed R ⟨en, E, fun _ _ => False⟩ (startOf n) Γ .free := by
  have h1 := C66_partial R E P env traits en m n out h hs hb hc hq Γ hΓ hret hty
  rwa [typedIn_plain _ hm hn] at h1

/-- The function `Ex.fnIn` meets the hypotheses, and its expansion is well typed. -/
example : Accepted Ex.env [.ofIdents ["Iterator"]] "__Enum5" "marker" Ex.fnIn Ex.fnOut ∧
    Simple "__Enum5" "marker" Ex.fnIn ∧ (jobOf "__Enum5" "marker" Ex.fnIn).branches = true ∧
    (jobOf "__Enum5" "marker" Ex.fnIn).returns = true ∧
    typable (jobOf "__Enum5" "marker" Ex.fnIn) .result (startOf Ex.fnIn) = true ∧
    checkable (jobOf "__Enum5" "marker" Ex.fnIn) .result (startOf Ex.fnIn) = true ∧
    asks (startOf Ex.fnIn) = false ∧
    (∀ l ∈ visible (startOf Ex.fnIn), callsMacro "marker" l.1 = false) ∧ hasNested [startOf Ex.fnIn] = false ∧
    (∀ l ∈ visible (startOf Ex.fnIn), carries l.1 = true → marked "never" l.2 = false) ∧
    typed Ex.rules ⟨"__Enum5", "enum", fun x t => t = if x = "__Variant0" then "type of 2" else
        if x = "__Variant1" then "type of 3" else "type of 1"⟩
      (counterpart Ex.fnIn Ex.fnOut) { Ex.outside with ret := .is "enum" } (.is "enum") := by
  refine ⟨Ex.fn_accepted, Ex.fn_simple, by decide +kernel, by decide +kernel, by decide +kernel,
    by decide +kernel, by decide +kernel, by decide +kernel, by decide +kernel, by decide +kernel, ?_⟩
  simp only [Ex.fnIn, Ex.fnOut]
  typing
  have h5 : "__Enum" ++ Nat.repr 5 = "__Enum5" := by decide
  have h0 : "__Variant" ++ Nat.repr 0 = "__Variant0" := by decide
  have h1 : "__Variant" ++ Nat.repr 1 = "__Variant1" := by decide
  have h2 : "__Variant" ++ Nat.repr 2 = "__Variant2" := by decide
  simp [h5, h0, h1, h2]

/-- Rules by which `c` is not a `bool`. -/
def Ex.cRules : Rules String Unit := { Ex.rules with bool := "Bool" }

/-- The condition of an `if` statement of `Ex.fnIn` has the wrong type by these rules; so its expansion cannot be
given a type, whatever the payloads of the variants are. -/
example (P : Ident → String → Prop) : ¬ typed Ex.cRules ⟨"__Enum5", "enum", P⟩ (counterpart Ex.fnIn Ex.fnOut)
    { Ex.outside with ret := .is "enum" } (.is "enum") := by
  intro h
  have h1 := C66_unmarked_partial Ex.cRules "enum" P _ _ _ _ _ _ Ex.fn_accepted Ex.fn_simple (by decide +kernel)
    (by decide +kernel) (fun _ => by decide +kernel) (by decide +kernel) (by decide +kernel) Ex.outside rfl (fun _ => rfl)
    (by
      rw [if_pos (by decide +kernel)]
      exact h)
  revert h1
  simp only [Ex.fnIn, Ex.fnBody, Ex.cRules]
  typing

/-- If it binds another variable, the variable used in an arm is not in scope; neither is it in the expansion. -/
example : ∃ out, Accepted Ex.env [.ofIdents ["Iterator"]] "__Enum5" "marker" (Ex.scopeIn "z") out ∧
    ∀ P : Ident → String → Prop, ¬ typed Ex.scopeRules ⟨"__Enum5", "enum", P⟩ (counterpart (Ex.scopeIn "z") out)
      Ex.inScope (.is "enum") := by
  have h := Ex.of_check (o := autoEnum Ex.env 20 5 Ex.iterator (.expr (Ex.scopeIn "z")))
    (p := fun _ => true) (by decide +kernel)
  obtain ⟨out, h1, -⟩ := h
  refine ⟨out, Ex.accepted_expr rfl h1, fun P h => ?_⟩
  have h1 := C66_unmarked_partial Ex.scopeRules "enum" P _ _ _ _ _ _ (Ex.accepted_expr rfl h1)
    ⟨by decide +kernel, by decide +kernel, by decide +kernel⟩ (by decide +kernel) (by decide +kernel)
    (fun _ => by decide +kernel) (by decide +kernel) (by decide +kernel) Ex.inScope rfl (fun _ => rfl) (by
      rw [if_neg (by decide +kernel)]
      exact h)
  revert h1
  simp only [Ex.scopeIn, Ex.inScope, Ex.scopeRules]
  typing
  rintro _ - _ h
  cases h

end AutoEnums
