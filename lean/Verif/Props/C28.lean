import Verif.Lemmas.EvalMarkSyn
import Verif.Lemmas.EvalRun
import Verif.Lemmas.EvalTry
import Verif.ExamplesRun

/-! # C28: wrapping preserves behaviour -/

namespace AutoEnums

open Spec

/-- C28: whatever everything but control flow means, the expansion runs like the original code with `(e)` for
`marker!(e)`: from every state, both run on, or both end in the same state with the same outcome (value,
`break`, `continue`, `return`, error of `?`, panic), except that values are wrapped in a variant that the
generated enum declares, and those of `return`s if `return`s are wrapped.  `Consistent` says which code this is
about: values are wrapped where they end up in the result, be it as branches, by `#[nested]` or by markers, and
all values that end up in the result are.

The mode that desugars `?` is the subject of `C28_try_partial`.  Missing: wrapped values that end up in the
result through a variable (`#[nested] let`) or a call, method calls on the expression in result position; and
what the semantics leaves out (scopes, moves, drops, types).  Labelled blocks in result position are excluded
because the claim is false for them (`C28_label_fails`). -/
theorem C28_marked_partial {B S : Type} (M : Machine B S) (env : Env) (traits : List Path) (en : Ident)
    (m : String) (n out : Node) (h : Accepted env traits en m n out) (hs : Simple en m n)
    (hb : (jobOf en m n).branches = true)
    (hsup : Consistent M (jobOf en m n) [] .result (startOf n))
    (hw : isWrapped (jobOf en m n) .result (startOf n) = true ∨ NeverCompletes M en (withoutMarkers m (startOf n)))
    (f : Nat) (s : S) :
    Agree (Wraps (declared en out) true [] (jobOf en m n).returns)
      (run M en f (withoutMarkers m (startOf n)) s) (run M en f (counterpart n out) s) :=
  run_marked h hs hb hsup hw f s

/-- C28 for code with markers and `#[nested]`, described syntactically. -/
theorem C28_marked_syntactic_partial {B S : Type} (M : Machine B S) (env : Env) (traits : List Path) (en : Ident)
    (m : String) (n out : Node) (h : Accepted env traits en m n out) (hs : Simple en m n)
    (hb : (jobOf en m n).branches = true)
    (hc : consistent (jobOf en m n) [] .result (startOf n) = true)
    (hw : isWrapped (jobOf en m n) .result (startOf n) = true) (f : Nat) (s : S) :
    Agree (Wraps (declared en out) true [] (jobOf en m n).returns)
      (run M en f (withoutMarkers m (startOf n)) s) (run M en f (counterpart n out) s) :=
  run_marked h hs hb (consistent_wrapped _ _ _ hc) (.inl hw) f s

/-- The hypotheses are met by a function with a marker in a `return`, one at the end of an arm and one in a
`break`, an arm and a `loop` annotated `#[nested]`; what happens there is what happens without the markers. -/
example : ∃ out, Accepted Ex.env [.ofIdents ["Iterator"]] "__Enum5" "marker" Ex.markedIn out ∧
    Simple "__Enum5" "marker" Ex.markedIn ∧ (jobOf "__Enum5" "marker" Ex.markedIn).branches = true ∧
    (jobOf "__Enum5" "marker" Ex.markedIn).returns = true ∧
    consistent (jobOf "__Enum5" "marker" Ex.markedIn) [] .result (startOf Ex.markedIn) = true ∧
    isWrapped (jobOf "__Enum5" "marker" Ex.markedIn) .result (startOf Ex.markedIn) = true ∧
    (["0", "1", "2", "3", "4", "true"].map fun s =>
      run Ex.machine "__Enum5" 9 (withoutMarkers "marker" (startOf Ex.markedIn)) s) =
      [some (.val (.base "2"), "0"), some (.val (.base "4"), "1"), some (.val (.base "6"), "2"),
       some (.panic, "3"), some (.val (.base "7"), "4"), some (.ret (.base "1"), "true")] ∧
    (["0", "1", "2", "3", "4", "true"].map fun s =>
      run Ex.machine "__Enum5" 9 (counterpart Ex.markedIn out) s) =
      [some (.val (.inj "__Variant2" (.base "2")), "0"), some (.val (.inj "__Variant4" (.base "4")), "1"),
       some (.val (.inj "__Variant6" (.base "6")), "2"), some (.panic, "3"),
       some (.val (.inj "__Variant0" (.base "7")), "4"),
       some (.ret (.inj "__Variant1" (.base "1")), "true")] := by
  have h := Ex.of_check (o := autoEnum Ex.env 20 5 Ex.iterator (.stmt Ex.markedIn))
    (p := fun out => decide ((["0", "1", "2", "3", "4", "true"].map fun s =>
      run Ex.machine "__Enum5" 9 (counterpart Ex.markedIn out) s) =
      [some (.val (.inj "__Variant2" (.base "2")), "0"), some (.val (.inj "__Variant4" (.base "4")), "1"),
       some (.val (.inj "__Variant6" (.base "6")), "2"), some (.panic, "3"),
       some (.val (.inj "__Variant0" (.base "7")), "4"),
       some (.ret (.inj "__Variant1" (.base "1")), "true")])) (by decide +kernel)
  obtain ⟨out, h1, h2⟩ := h
  exact ⟨out, Ex.accepted_stmt rfl h1, ⟨by decide +kernel, by decide +kernel, by decide +kernel⟩,
    by decide +kernel, by decide +kernel, by decide +kernel, by decide +kernel, by decide +kernel,
    of_decide_eq_true h2⟩

/-- C28 for code without markers and `#[nested]`.  `Covered` says which code this is about. -/
theorem C28_partial {B S : Type} (M : Machine B S) (env : Env) (traits : List Path) (en : Ident)
    (m : String) (n out : Node) (h : Accepted env traits en m n out) (hs : Simple en m n)
    (hb : (jobOf en m n).branches = true)
    (hsup : Covered M (jobOf en m n) [] .result (startOf n)) (f : Nat) (s : S) :
    Agree (Wraps (declared en out) true [] (jobOf en m n).returns)
      (run M en f (startOf n) s) (run M en f (counterpart n out) s) :=
  run_accepted h hs hb hsup f s

/-- C28 for code without markers and `#[nested]`, described syntactically. -/
theorem C28_syntactic_partial {B S : Type} (M : Machine B S) (env : Env) (traits : List Path) (en : Ident)
    (m : String) (n out : Node) (h : Accepted env traits en m n out) (hs : Simple en m n)
    (hb : (jobOf en m n).branches = true)
    (hc : comparable (jobOf en m n) .result (startOf n) = true) (f : Nat) (s : S) :
    Agree (Wraps (declared en out) true [] (jobOf en m n).returns)
      (run M en f (startOf n) s) (run M en f (counterpart n out) s) :=
  run_accepted h hs hb (comparable_covered _ _ _ hc) f s

/-- The hypotheses are met by a function with a `return` that ends in a `match`. -/
example : Accepted Ex.env [.ofIdents ["Iterator"]] "__Enum5" "marker" Ex.fnIn Ex.fnOut ∧
    Simple "__Enum5" "marker" Ex.fnIn ∧ (jobOf "__Enum5" "marker" Ex.fnIn).branches = true ∧
    (jobOf "__Enum5" "marker" Ex.fnIn).returns = true ∧
    comparable (jobOf "__Enum5" "marker" Ex.fnIn) .result (startOf Ex.fnIn) = true ∧
    declared "__Enum5" Ex.fnOut = ["__Variant0", "__Variant1", "__Variant2"] :=
  ⟨Ex.fn_accepted, Ex.fn_simple, by decide +kernel, by decide +kernel, by decide +kernel, by decide +kernel⟩

/-- What happens there: the value of an arm, the `return` and the panic. -/
example : (["0", "1", "2", "true"].map fun s =>
      (run Ex.machine "__Enum5" 9 (startOf Ex.fnIn) s, run Ex.machine "__Enum5" 9 (counterpart Ex.fnIn Ex.fnOut) s)) =
    [(some (.val (.base "2"), "0"), some (.val (.inj "__Variant0" (.base "2")), "0")),
     (some (.panic, "1"), some (.panic, "1")),
     (some (.val (.base "3"), "2"), some (.val (.inj "__Variant1" (.base "3")), "2")),
     (some (.ret (.base "1"), "true"), some (.ret (.inj "__Variant2" (.base "1")), "true"))] := by
  decide +kernel

/-- The hypotheses are met by a `loop`, whose value is that of its `break`s; here `return`s are none of the
attribute's business. -/
example : ∃ out, Accepted Ex.env [.ofIdents ["Iterator"]] "__Enum5" "marker" Ex.loopRunIn out ∧
    Simple "__Enum5" "marker" Ex.loopRunIn ∧ (jobOf "__Enum5" "marker" Ex.loopRunIn).branches = true ∧
    (jobOf "__Enum5" "marker" Ex.loopRunIn).returns = false ∧
    comparable (jobOf "__Enum5" "marker" Ex.loopRunIn) .result (startOf Ex.loopRunIn) = true ∧
    (["0", "2", "3"].map fun s => run Ex.machine "__Enum5" 9 (counterpart Ex.loopRunIn out) s) =
      [some (.val (.inj "__Variant0" (.base "1")), "0"), some (.val (.inj "__Variant1" (.base "2")), "2"),
       some (.ret (.base "3"), "3")] := by
  have h := Ex.of_check (o := autoEnum Ex.env 20 5 Ex.iterator (.expr Ex.loopRunIn))
    (p := fun out => decide ((["0", "2", "3"].map fun s =>
      run Ex.machine "__Enum5" 9 (counterpart Ex.loopRunIn out) s) =
      [some (.val (.inj "__Variant0" (.base "1")), "0"), some (.val (.inj "__Variant1" (.base "2")), "2"),
       some (.ret (.base "3"), "3")])) (by decide +kernel)
  obtain ⟨out, h1, h2⟩ := h
  exact ⟨out, Ex.accepted_expr rfl h1, ⟨by decide +kernel, by decide +kernel, by decide +kernel⟩,
    by decide +kernel, by decide +kernel, by decide +kernel, of_decide_eq_true h2⟩

/-- C28 in the mode that desugars `?`: the expansion runs like the original code, except that where a `?`
fails with `Err(v)`, the expansion returns `Err(..)` of `v` wrapped in a variant that the generated enum
declares.  `Results` says what the machine must know about `Ok` and `Err`, and `Fallible` which code this is
about.  (The fuel is positive since the expansion reads variables.)

Missing: calls of the marker, `#[never]` on `?`. -/
theorem C28_try_partial {B S : Type} (M : Machine B S) (L : Results M) (env : Env) (traits : List Path)
    (en : Ident) (m : String) (n out : Node) (h : Accepted env traits en m n out) (hs : Simple en m n)
    (ht : (jobOf en m n).tries = true)
    (hf : Fallible M L.ok (jobOf en m n) false (startOf n)) (f : Nat) (s : S) :
    Agree (Desugars M (declared en out)) (run M en (f + 1) (startOf n) s)
      (run M en (f + 1) (counterpart n out) s) :=
  run_desugared h hs ht L hf f s

/-- The laws are met by a machine. -/
def Ex.resLaws : Results Ex.resMachine where
  ok v := .inj "Ok" v
  fails_ok _ := by simp [Ex.resMachine]
  tryOk _ _ := rfl
  okArm _ _ := ⟨rfl, rfl⟩
  errMiss _ _ := rfl
  errArm _ _ := ⟨rfl, rfl⟩

theorem Ex.var_results (x : String) (hx : x ∉ ["val", "err", "None"]) :
    YieldsResults Ex.resMachine Ex.resLaws.ok "__Enum5" (Ex.var x) := by
  intro f y s v s' h
  simp only [List.mem_cons, List.not_mem_nil, or_false, not_or] at hx
  cases f with
  | zero =>
    simp only [Ex.var, pathE, Path.ofIdents, eval, Eval.node, List.map_cons, List.map_nil] at h
    rw [if_neg (by simp [Eval.isNone, isOneOf, hx])] at h
    cases h
  | succ f =>
    simp only [Ex.var, pathE, Path.ofIdents, eval, Eval.node, List.map_cons, List.map_nil] at h
    rw [if_neg (by simp [Eval.isNone, isOneOf, hx])] at h
    simp only [Eval.other, Ex.resMachine, hx, or_self, if_false, Option.some.injEq, Prod.mk.injEq,
      Outcome.val.injEq] at h
    obtain ⟨h, _⟩ := h
    split at h
    · exact ⟨.base x, .inr h.symm⟩
    · exact ⟨.base x, .inl h.symm⟩

/-- The hypotheses are met by a function with `?`s in a statement, a `try` block and a loop; which `?`
fails is up to the state. -/
theorem Ex.tryFn_met : ∃ out, Accepted Ex.env [.ofIdents ["Iterator"]] "__Enum5" "marker" Ex.tryFnIn out ∧
    Simple "__Enum5" "marker" Ex.tryFnIn ∧ (jobOf "__Enum5" "marker" Ex.tryFnIn).tries = true ∧
    Fallible Ex.resMachine Ex.resLaws.ok (jobOf "__Enum5" "marker" Ex.tryFnIn) false (startOf Ex.tryFnIn) ∧
    declared "__Enum5" out = ["__Variant0", "__Variant1"] ∧
    (["x", "y", "w"].map fun s => run Ex.resMachine "__Enum5" 9 (startOf Ex.tryFnIn) (s, [])) =
      [some (.fail (.inj "Err" (.base "x")), ("x", [])), some (.fail (.inj "Err" (.base "y")), ("y", [])),
       some (.val (.inj "Ok" (.base "z")), ("w", []))] ∧
    (["x", "y", "w"].map fun s => run Ex.resMachine "__Enum5" 9 (counterpart Ex.tryFnIn out) (s, [])) =
      [some (.ret (.inj "Err" (.inj "__Variant0" (.base "x"))), ("x", [])),
       some (.ret (.inj "Err" (.inj "__Variant1" (.base "y"))), ("y", [])),
       some (.val (.inj "Ok" (.base "z")), ("w", []))] := by
  have h := Ex.of_check (o := autoEnum Ex.env 20 5 Ex.iterator (.stmt Ex.tryFnIn))
    (p := fun out => decide (declared "__Enum5" out = ["__Variant0", "__Variant1"]) &&
      decide ((["x", "y", "w"].map fun s => run Ex.resMachine "__Enum5" 9 (counterpart Ex.tryFnIn out) (s, [])) =
      [some (.ret (.inj "Err" (.inj "__Variant0" (.base "x"))), ("x", [])),
       some (.ret (.inj "Err" (.inj "__Variant1" (.base "y"))), ("y", [])),
       some (.val (.inj "Ok" (.base "z")), ("w", []))])) (by decide +kernel)
  obtain ⟨out, h1, h2⟩ := h
  rw [Bool.and_eq_true, decide_eq_true_eq, decide_eq_true_eq] at h2
  have hj : jobOf "__Enum5" "marker" Ex.tryFnIn = ⟨"__Enum5", "marker", false, false, true⟩ := by decide +kernel
  refine ⟨out, Ex.accepted_stmt rfl h1, ⟨by decide +kernel, by decide +kernel, by decide +kernel⟩,
    by rw [hj], ?_, h2.1, by decide +kernel, h2.2⟩
  rw [hj]
  have hx := Ex.var_results "x" (by decide)
  have hy := Ex.var_results "y" (by decide)
  simp only [Ex.var, pathE] at hx hy
  simp [Ex.tryFnIn, startOf, targetOf, bodyOf, Fallible, FallibleL, isFrozen, semiS, tailS, hx, hy, marked,
    hidesCode, Ex.var, pathE]

/-- C28 fails for a labelled block in result position: the value of a `break` out of it is not wrapped. -/
theorem C28_label_fails : ∃ out,
    Accepted Ex.env [.ofIdents ["Iterator"]] "__Enum5" "marker" Ex.blockIn out ∧
    Simple "__Enum5" "marker" Ex.blockIn ∧ (jobOf "__Enum5" "marker" Ex.blockIn).branches = true ∧
    ¬ Agree (Wraps (declared "__Enum5" out) true [] (jobOf "__Enum5" "marker" Ex.blockIn).returns)
      (run Ex.machine "__Enum5" 9 (startOf Ex.blockIn) "true")
      (run Ex.machine "__Enum5" 9 (counterpart Ex.blockIn out) "true") := by
  have h := Ex.of_check (o := autoEnum Ex.env 20 5 Ex.iterator (.expr Ex.blockIn))
    (p := fun out => decide (run Ex.machine "__Enum5" 9 (counterpart Ex.blockIn out) "true" =
      some (.val (.base "1"), "true"))) (by decide +kernel)
  obtain ⟨out, h1, h2⟩ := h
  refine ⟨out, Ex.accepted_expr rfl h1, ⟨by decide +kernel, by decide +kernel, by decide +kernel⟩,
    by decide +kernel, ?_⟩
  rw [of_decide_eq_true h2,
    show run Ex.machine "__Enum5" 9 (startOf Ex.blockIn) "true" = some (.val (.base "1"), "true") by decide +kernel]
  rintro ⟨_, x, _, h⟩
  cases h

end AutoEnums
