import Verif.Props.C03Count
import Verif.Examples

/-! # C56: what becomes of an input without inner attributes -/

namespace AutoEnums

open Spec

/-- C56: the outcome for every syntactically valid ordinary input without inner attributes.  If there is
something to report apart from the number of branches, then exactly that is reported.  Otherwise the
number of expressions to wrap decides: if there are fewer than two, this is the only report, and if there
are two or more, the output is the one-pass treatment of the input with the declaration of the enum in
front. -/
theorem C56_outcome (env : Env) (h : Nat) (toks : List Tok) (traits : List Path)
    (marker : Option Ident) (ha : IsArgs toks traits marker) (ht : traits ≠ [])
    (en : Ident) (hen : en = "__Enum" ++ toString h) (m : String) (hm : m = marker.getD "marker")
    (input : Input) (n : Node)
    (hin : input = .expr n ∧ isExprNode n = true ∨ input = .stmt n ∧ isExprNode n = false)
    (hord : ordinary en m n = true) (hno : ∀ a ∈ allAttrs n, named "auto_enum" a = false)
    (hfresh : ctors en n = 0) (hvalid : elseOk n = true) :
    ∃ F, ∀ f, F ≤ f →
      (reportsInput en m n ≠ [] → autoEnum env f h toks input = .errors (reportsInput en m n)) ∧
      (reportsInput en m n = [] → ctors en (treatInput en m n) < 2 → autoEnum env f h toks input =
        .errors [.twoOrMore (tooFewMode n) (ctors en (treatInput en m n) = 1)]) ∧
      (reportsInput en m n = [] → 2 ≤ ctors en (treatInput en m n) →
        ∃ n', Alike en n' (retype env.typeAnalysis traits (treatInput en m n)) ∧
          autoEnum env f h toks input =
            .code (placeEnum (enumDecl en (ctors en (treatInput en m n))
              (traits ++ inferredFor env.typeAnalysis traits n)) n')) := by
  obtain ⟨F, hF⟩ := C19 env h toks input (by
    rintro x (rfl | rfl) <;> rcases hin with ⟨hi, _⟩ | ⟨hi, _⟩ <;> cases hi <;> exact hvalid)
  refine ⟨F, fun f hf => ?_⟩
  obtain ⟨h1, h2, h3⟩ := outcome_active env f h toks traits marker ha en hen m hm input n
    (fun cx hnew => by
      obtain ⟨_, p1, _⟩ := new_args hnew
      rw [(parseArgs_iff _ _ _).mpr ha] at p1
      cases p1
      exact .of_args ht n) hin hord hno hfresh
    (fun ps h => by
      rcases hF with ⟨_, hF⟩ | ⟨_, hF⟩ <;> rw [hF f hf] at h <;> cases h)
  refine ⟨h1, h2, fun hr hc => ?_⟩
  obtain ⟨out, ho⟩ := h3 hr hc
  obtain ⟨n', hn, _, rfl⟩ := C03_accepted env f h toks traits marker ha ht en hen m hm input n out hin
    hord hno hfresh ho
  exact ⟨n', hn, ho⟩

/-- C56, acceptance: such an input is accepted iff its branches are not those of an `if` without `else`,
none of its expressions, arms and `let`s is at fault, and there are two or more expressions to wrap. -/
theorem C56_accepted (env : Env) (h : Nat) (toks : List Tok) (traits : List Path)
    (marker : Option Ident) (ha : IsArgs toks traits marker) (ht : traits ≠ [])
    (en : Ident) (hen : en = "__Enum" ++ toString h) (m : String) (hm : m = marker.getD "marker")
    (input : Input) (n : Node)
    (hin : input = .expr n ∧ isExprNode n = true ∨ input = .stmt n ∧ isExprNode n = false)
    (hord : ordinary en m n = true) (hno : ∀ a ∈ allAttrs n, named "auto_enum" a = false)
    (hfresh : ctors en n = 0) (hvalid : elseOk n = true) :
    ∃ F, ∀ f, F ≤ f → ((∃ out, autoEnum env f h toks input = .code out) ↔
      lacksElse (jobOf en m n) (entry n) = false ∧
      (∀ x ∈ parts (entry n), faulty (jobOf en m n) x = false) ∧
      2 ≤ ctors en (treatInput en m n)) := by
  obtain ⟨F, hF⟩ := C56_outcome env h toks traits marker ha ht en hen m hm input n hin hord hno
    hfresh hvalid
  refine ⟨F, fun f hf => ?_⟩
  obtain ⟨h1, h2, h3⟩ := hF f hf
  have hr : reportsInput en m n = [] ↔ lacksElse (jobOf en m n) (entry n) = false ∧
      ∀ x ∈ parts (entry n), faulty (jobOf en m n) x = false := by
    unfold reportsInput reportsFrom
    rw [← reports_none]
    by_cases hl : lacksElse (jobOf en m n) (entry n) = true
    · simp [hl]
    · rw [Bool.not_eq_true] at hl
      simp [hl]
  rw [← and_assoc, ← hr]
  constructor
  · rintro ⟨out, ho⟩
    have e1 : reportsInput en m n = [] := by
      apply Classical.byContradiction
      intro h
      rw [h1 h] at ho
      cases ho
    refine ⟨e1, ?_⟩
    apply Classical.byContradiction
    intro h
    rw [h2 e1 (by omega)] at ho
    cases ho
  · rintro ⟨e1, e2⟩
    obtain ⟨n', _, ho⟩ := h3 e1 e2
    exact ⟨_, ho⟩

/-- ```
match x {
    0 => { #[never(a)] f(#[rec] 1); 2 }
    #[nested] #[rec] 1 => if c { 3 }
    #[rec] _ => 4,
}
``` -/
def Ex.faults : Node := .mk .eMatch [] [Ex.var "x",
  Ex.arm "0" (exprBlock [
    semiS (.mk .eCall [⟨.ofIdents ["never"], .list [.other "a"]⟩]
      [Ex.var "f", .mk (.eLit "1") [Ex.helper "rec"] []]),
    tailS (Ex.lit "2")]),
  .mk (.arm "1") [Ex.helper "nested", Ex.helper "rec"]
    [.mk .eIf [] [Ex.var "c", .mk .block [] [tailS (Ex.lit "3")]]],
  .mk (.arm "_") [Ex.helper "rec"] [Ex.lit "4"]]

/-- The hypotheses of C56 are met by this input.  Reported are the `#[rec]` in the call, and, since the
call is around it, `#[never(a)]`; none of the other faults. -/
example : isExprNode Ex.faults = true ∧ ordinary "__Enum5" "marker" Ex.faults = true ∧
    (∀ a ∈ allAttrs Ex.faults, named "auto_enum" a = false) ∧ ctors "__Enum5" Ex.faults = 0 ∧
    elseOk Ex.faults = true ∧
    reportsInput "__Enum5" "marker" Ex.faults = [.recRemoved, .neverNotPath] ∧
    autoEnum Ex.env 20 5 Ex.iterator (.expr Ex.faults) = .errors [.recRemoved, .neverNotPath] := by
  decide +kernel

/-- `Ex.faults` with the first arm replaced by `0 => 2`. -/
def Ex.faults' : Node := .mk .eMatch [] [Ex.var "x", Ex.arm "0" (Ex.lit "2"),
  .mk (.arm "1") [Ex.helper "nested", Ex.helper "rec"]
    [.mk .eIf [] [Ex.var "c", .mk .block [] [tailS (Ex.lit "3")]]],
  .mk (.arm "_") [Ex.helper "rec"] [Ex.lit "4"]]

/-- What is reported about `#[nested]` comes before what is reported about `#[rec]` of the same arm. -/
example : reportsInput "__Enum5" "marker" Ex.faults' = [.missingElse, .recRemoved] ∧
    autoEnum Ex.env 20 5 Ex.iterator (.expr Ex.faults') = .errors [.missingElse, .recRemoved] := by
  decide +kernel

/-- `match x { 0 => 1, _ => marker!(2) };` -/
def Ex.oneMarker : Node := semiS (.mk .eMatch [] [Ex.var "x", Ex.arm "0" (Ex.lit "1"),
  Ex.arm "_" (.mk (.eMacro (.ofIdents ["marker"]) "") [] [Ex.lit "2"])])

/-- A function that is accepted, and a statement ending in `;` with one branch given by a marker. -/
example : (reportsInput "__Enum5" "marker" Ex.fnIn = [] ∧
      2 ≤ ctors "__Enum5" (treatInput "__Enum5" "marker" Ex.fnIn)) ∧
    ordinary "__Enum5" "marker" Ex.oneMarker = true ∧
    reportsInput "__Enum5" "marker" Ex.oneMarker = [] ∧
    ctors "__Enum5" (treatInput "__Enum5" "marker" Ex.oneMarker) = 1 ∧
    autoEnum Ex.env 20 5 Ex.iterator (.stmt Ex.oneMarker) = .errors [.twoOrMore .never true] := by
  decide +kernel

end AutoEnums
