import Verif.Props.C28

/-! # C27: result positions of supported expressions always yield the enum -/

namespace AutoEnums

open Spec

/-- C27: whatever everything but control flow means, every value that the expansion of a supported
expression ends with is one of the generated enum, made with a variant it declares; if `return`s are
wrapped (functions and closures), so are the values they return.  `Consistent` demands that the values that end
up in the result do so through blocks, `unsafe`, parentheses, the branches of `match` and `if`, `break`s of
`loop`s and `return`s, and that those that are neither branches nor marked nor annotated `#[nested]` never
arise. -/
theorem C27 {B S : Type} (M : Machine B S) (env : Env) (traits : List Path) (en : Ident)
    (m : String) (n out : Node) (h : Accepted env traits en m n out) (hs : Simple en m n)
    (hb : (jobOf en m n).branches = true)
    (hsup : Consistent M (jobOf en m n) [] .result (startOf n))
    (hw : isWrapped (jobOf en m n) .result (startOf n) = true ∨ NeverCompletes M en (withoutMarkers m (startOf n)))
    (f : Nat) (s s' : S) (w : Value B)
    (hrun : run M en f (counterpart n out) s = some (.val w, s') ∨
      (jobOf en m n).returns = true ∧ run M en f (counterpart n out) s = some (.ret w, s')) :
    ∃ x ∈ declared en out, ∃ v, w = .inj x v := by
  have ha := C28_marked_partial M env traits en m n out h hs hb hsup hw f s
  rcases hrun with hrun | ⟨hr, hrun⟩
  · rw [hrun] at ha
    match hx : run M en f (withoutMarkers m (startOf n)) s with
    | none => rw [hx] at ha; exact ha.elim
    | some (o, s0) =>
      rw [hx] at ha
      obtain ⟨-, ha⟩ := ha
      cases o <;> simp only [Wraps] at ha
      obtain ⟨x, hx, he⟩ := ha
      exact ⟨x, hx, _, he⟩
  · rw [hrun] at ha
    match hx : run M en f (withoutMarkers m (startOf n)) s with
    | none => rw [hx] at ha; exact ha.elim
    | some (o, s0) =>
      rw [hx] at ha
      obtain ⟨-, ha⟩ := ha
      cases o <;> simp only [Wraps] at ha
      rw [hr] at ha
      obtain ⟨x, hx, he⟩ := ha
      exact ⟨x, hx, _, he⟩

/-- C27 for code with markers and `#[nested]`, described syntactically. -/
theorem C27_marked_syntactic {B S : Type} (M : Machine B S) (env : Env) (traits : List Path) (en : Ident)
    (m : String) (n out : Node) (h : Accepted env traits en m n out) (hs : Simple en m n)
    (hb : (jobOf en m n).branches = true)
    (hc : consistent (jobOf en m n) [] .result (startOf n) = true)
    (hw : isWrapped (jobOf en m n) .result (startOf n) = true) (f : Nat) (s s' : S) (w : Value B)
    (hrun : run M en f (counterpart n out) s = some (.val w, s') ∨
      (jobOf en m n).returns = true ∧ run M en f (counterpart n out) s = some (.ret w, s')) :
    ∃ x ∈ declared en out, ∃ v, w = .inj x v :=
  C27 M env traits en m n out h hs hb (consistent_wrapped _ _ _ hc) (.inl hw) f s s' w hrun

/-- C27 for code without markers and `#[nested]`, described syntactically. -/
theorem C27_syntactic {B S : Type} (M : Machine B S) (env : Env) (traits : List Path) (en : Ident)
    (m : String) (n out : Node) (h : Accepted env traits en m n out) (hs : Simple en m n)
    (hb : (jobOf en m n).branches = true)
    (hc : comparable (jobOf en m n) .result (startOf n) = true) (f : Nat) (s s' : S) (w : Value B)
    (hrun : run M en f (counterpart n out) s = some (.val w, s') ∨
      (jobOf en m n).returns = true ∧ run M en f (counterpart n out) s = some (.ret w, s')) :
    ∃ x ∈ declared en out, ∃ v, w = .inj x v :=
  C27 M env traits en m n out h hs hb (Covered.consistent _ _ _ (comparable_covered _ _ _ hc))
    (covered_result (comparable_covered _ _ _ hc)) f s s' w hrun

/-- The hypotheses are met by a function with a `return` that ends in a `match`, which ends both ways. -/
example : Accepted Ex.env [.ofIdents ["Iterator"]] "__Enum5" "marker" Ex.fnIn Ex.fnOut ∧
    Simple "__Enum5" "marker" Ex.fnIn ∧ (jobOf "__Enum5" "marker" Ex.fnIn).branches = true ∧
    comparable (jobOf "__Enum5" "marker" Ex.fnIn) .result (startOf Ex.fnIn) = true ∧
    run Ex.machine "__Enum5" 9 (counterpart Ex.fnIn Ex.fnOut) "2" =
      some (.val (.inj "__Variant1" (.base "3")), "2") ∧
    (jobOf "__Enum5" "marker" Ex.fnIn).returns = true ∧
    run Ex.machine "__Enum5" 9 (counterpart Ex.fnIn Ex.fnOut) "true" =
      some (.ret (.inj "__Variant2" (.base "1")), "true") :=
  ⟨Ex.fn_accepted, Ex.fn_simple, by decide +kernel, by decide +kernel, by decide +kernel, by decide +kernel,
    by decide +kernel⟩

end AutoEnums
