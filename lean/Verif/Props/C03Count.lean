import Verif.Lemmas.ReportsWhole
import Verif.Props.C03

/-! # C03: which inputs without inner attributes are accepted -/

namespace AutoEnums

open Spec

/-- What becomes of an ordinary input without inner attributes to which the attribute is applied. -/
theorem outcome_active (env : Env) (fuel h : Nat) (toks : List Tok) (traits : List Path)
    (marker : Option Ident) (ha : IsArgs toks traits marker)
    (en : Ident) (hen : en = "__Enum" ++ toString h) (m : String) (hm : m = marker.getD "marker")
    (input : Input) (n : Node)
    (hact : ∀ cx, Cx.new h toks true [] [] = .ok cx → Active env cx n)
    (hin : input = .expr n ∧ isExprNode n = true ∨ input = .stmt n ∧ isExprNode n = false)
    (hord : ordinary en m n = true) (hno : ∀ a ∈ allAttrs n, named "auto_enum" a = false)
    (hfresh : ctors en n = 0) (hrun : ∀ ps, autoEnum env fuel h toks input ≠ .panicked ps) :
    (reportsInput en m n ≠ [] → autoEnum env fuel h toks input = .errors (reportsInput en m n)) ∧
    (reportsInput en m n = [] → ctors en (treatInput en m n) < 2 →
      autoEnum env fuel h toks input =
        .errors [.twoOrMore (tooFewMode n) (ctors en (treatInput en m n) = 1)]) ∧
    (reportsInput en m n = [] → 2 ≤ ctors en (treatInput en m n) →
      ∃ out, autoEnum env fuel h toks input = .code out) := by
  cases hnew : Cx.new h toks true [] [] with
  | error e =>
    simp only [Cx.new, (parseArgs_iff _ _ _).mpr ha] at hnew
    split at hnew
    · simp at hnew
    · cases hnew
  | ok cx =>
  simp only [autoEnum, hnew] at hrun ⊢
  cases hex : expandInput env fuel cx input with
  | none => rcases hin with ⟨rfl, _⟩ | ⟨rfl, _⟩ <;> cases hex
  | some r =>
  simp only [hex] at hrun ⊢
  have hpan : r.1.panics = [] := by
    cases hp : r.1.panics with
    | nil => rfl
    | cons p ps => exact absurd (by simp [finish, hp]) (hrun (p :: ps))
  have hfin : finish r = if r.1.errs.isEmpty then .code r.2 else .errors r.1.errs := by
    simp [finish, hpan]
  rw [hfin]
  clear hfin hrun
  obtain ⟨_, p1, p2, p3, _, p4, p5, p6, p7, _⟩ := new_args hnew
  have hf := new_fresh hnew
  rw [(parseArgs_iff _ _ _).mpr ha] at p1
  cases p1
  have e1 : cx.ident = en := by rw [p2, hen]; rfl
  have e2 : cx.marker = m := by rw [p3, hm]; rfl
  subst e1 e2
  obtain ⟨c1, _⟩ := core_spec hin hord (hact _ hnew) p4 hf hex
  obtain ⟨o1, o2, o3⟩ := core_own (visit_good env fuel) hf p5 n (names_zero hno)
  have hct := core_treated (env := env) (visit_run env fuel) (visit_good env fuel) p4 hf
    (hact _ hnew) hord
  have hlm := core_lastMode (f := fuel) p4 hf (hact _ hnew) hord
  have hrep := core_reports (f := fuel) p4 hf p5 (hact _ hnew) hord
  rw [c1] at hpan ⊢
  generalize core env (visit env fuel) cx n = c at *
  have hp : c.1.panics = [] := by
    rcases build_cases c.1 with ⟨_, hb⟩ | ⟨_, _, hb⟩ | ⟨_, _, _, hb⟩ | ⟨_, _, hb⟩ <;>
      rw [hb] at hpan <;> exact hpan
  have hrep := hrep hp
  rw [← hrep]
  by_cases he : c.1.errs = []
  · have hT := hct ⟨he, hp⟩
    have hk : c.1.variants.length = ctors cx.ident (treatInput cx.ident cx.marker n) := by
      rw [← ctors_retype, ← hT.alike.ctors, o2 he, hfresh]
      omega
    have hch : c.1.hasChild = false := hT.child.trans p7
    refine ⟨fun h => absurd he h, fun _ hlt => ?_, fun _ hge => ?_⟩
    · rcases build_cases c.1 with ⟨h, _⟩ | ⟨_, hv, hb⟩ | ⟨_, _, h, _⟩ | ⟨_, hv, _⟩
      · exact absurd he h
      · rw [hb, ← hk, ← hlm ⟨he, hp⟩]
        simp only [Cx.error, he, List.nil_append, List.isEmpty_cons, Bool.false_eq_true, if_false,
          Output.errors.injEq, List.cons.injEq, Err.twoOrMore.injEq, true_and, and_true]
        rcases hv with hv | ⟨hv, _⟩
        · cases hvar : c.1.variants with
          | nil => rw [hvar] at hv; cases hv
          | cons _ _ => rw [hvar] at hv; simpa using hv
        · rw [hv]; simpa using hv
      · rw [hch] at h; cases h
      · omega
    · rcases build_cases c.1 with ⟨h, _⟩ | ⟨_, hv, hb⟩ | ⟨_, _, h, _⟩ | ⟨_, hv, hb⟩
      · exact absurd he h
      · omega
      · rw [hch] at h; cases h
      · rw [hb, he]
        exact ⟨_, rfl⟩
  · refine ⟨fun _ => ?_, fun h => absurd h he, fun h => absurd h he⟩
    rcases build_cases c.1 with ⟨_, hb⟩ | ⟨h, _⟩ | ⟨h, _⟩ | ⟨h, _⟩
    · rw [hb]
      simp [he]
    · exact absurd h he
    · exact absurd h he
    · exact absurd h he

/-- C03 for inputs without inner attributes: if no other error is reported for a syntactically valid
ordinary input, then the expansion succeeds iff there are two or more expressions to wrap, and otherwise
"two or more" is reported.  That there is no other error is expressed by `reportsInput` alone, see C56.
(Missing from C03: inputs with inner attributes, for which it fails, see `C03_inner_fails`.) -/
theorem C03_partial (env : Env) (h : Nat) (toks : List Tok) (traits : List Path)
    (marker : Option Ident) (ha : IsArgs toks traits marker) (ht : traits ≠ [])
    (en : Ident) (hen : en = "__Enum" ++ toString h) (m : String) (hm : m = marker.getD "marker")
    (input : Input) (n : Node)
    (hin : input = .expr n ∧ isExprNode n = true ∨ input = .stmt n ∧ isExprNode n = false)
    (hord : ordinary en m n = true) (hno : ∀ a ∈ allAttrs n, named "auto_enum" a = false)
    (hfresh : ctors en n = 0) (hvalid : elseOk n = true) (hother : reportsInput en m n = []) :
    ∃ F, ∀ f, F ≤ f →
      (2 ≤ ctors en (treatInput en m n) → ∃ out, autoEnum env f h toks input = .code out) ∧
      (ctors en (treatInput en m n) < 2 → autoEnum env f h toks input =
        .errors [.twoOrMore (tooFewMode n) (ctors en (treatInput en m n) = 1)]) := by
  obtain ⟨F, hF⟩ := C19 env h toks input (by
    rintro x (rfl | rfl) <;> rcases hin with ⟨hi, _⟩ | ⟨hi, _⟩ <;> cases hi <;> exact hvalid)
  refine ⟨F, fun f hf => ?_⟩
  obtain ⟨_, h2, h3⟩ := outcome_active env f h toks traits marker ha en hen m hm input n
    (fun cx hnew => by
      obtain ⟨_, p1, _⟩ := new_args hnew
      rw [(parseArgs_iff _ _ _).mpr ha] at p1
      cases p1
      exact .of_args ht n) hin hord hno hfresh
    (fun ps h => by
      rcases hF with ⟨_, hF⟩ | ⟨_, hF⟩ <;> rw [hF f hf] at h <;> cases h)
  exact ⟨h3 hother, h2 hother⟩

/-- The hypotheses of `C03_partial` are met by a function with three expressions to wrap and by an
expression with one. -/
example : elseOk Ex.fnIn = true ∧ reportsInput "__Enum5" "marker" Ex.fnIn = [] ∧
    elseOk Ex.single = true ∧ reportsInput "__Enum5" "marker" Ex.single = [] := by decide +kernel

end AutoEnums
