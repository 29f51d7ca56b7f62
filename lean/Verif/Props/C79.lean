import Verif.Lemmas.Moved
import Verif.Lemmas.Inferred
import Verif.Props.C54
import Verif.Props.C78

/-! # C79: an inferred trait can be moved to the attribute -/

namespace AutoEnums

open Spec

namespace Moved

open Traits (re)

theorem stmt_re {env : Env} {f : Nat} {c : Cx} (hfr : Fresh c) (hroot : c.root = true) (n : Node)
    (hne : inferredFor env.typeAnalysis c.args n ≠ []) (hb : c.args ≠ [] ∨ busy c.marker n = true) :
    expandParentStmt env (visit env f) (re (c.args ++ inferredFor env.typeAnalysis c.args n) [] c)
        (retype env.typeAnalysis c.args n) =
      (re (c.args ++ inferredFor env.typeAnalysis c.args n) [] (expandParentStmt env (visit env f) c n).1,
        (expandParentStmt env (visit env f) c n).2) := by
  obtain ⟨k, as, ks⟩ := n
  cases hta : env.typeAnalysis with
  | false => simp [hta, inferredFor] at hne
  | true =>
  rw [hta] at hne
  cases k with
  | sLocal p =>
    cases p with
    | typed s ty =>
      have hi : inferred c.args ty ≠ [] := by simpa [inferredFor, annotationOf] using hne
      have e1 : inferredFor true c.args (.mk (.sLocal (.typed s ty)) as ks) = inferred c.args ty := by
        simp [inferredFor, annotationOf]
      have e2 : retype true c.args (.mk (.sLocal (.typed s ty)) as ks) = .mk (.sLocal (.plain s)) as ks := by
        simp [retype, hi]
      rw [e1, e2]
      have ha : c.args ++ inferred c.args ty ≠ [] := by simp [hi]
      simp only [expandParentStmt, expandParentLocal, localAnalysis, hta, if_true, Cx.collectImplTrait,
        collectTy_eq, hfr.traits, List.nil_append]
      have hc : ((!(inferred c.args ty).isEmpty) = true) := by simp [hi]
      rw [if_pos hc]
      have hd : ({ c with traits := inferred c.args ty } : Cx).isDummy = false := by simp [Cx.isDummy, hi]
      rw [hd, Traits.no_dummy (c := re (c.args ++ inferred c.args ty) [] c) ha]
      simp only [Bool.false_eq_true, if_false]
      cases ks with
      | nil => rfl
      | cons e els =>
        have hf : Fit { c with traits := inferred c.args ty } e := by
          rcases hb with h | h
          · exact .inl h
          · refine .inr ?_
            rintro i as' b rfl
            simp only [busy, returnsTwice, triesTwice, Bool.or_eq_true, Bool.and_eq_true,
              decide_eq_true_eq] at h
            rcases h with ⟨h1, h2⟩ | ⟨h1, h2⟩ <;>
              have := fnCount_exits (cx := { c with traits := inferred c.args ty }) hroot false b {} h1 rfl rfl
            · left
              have h3 := this.1
              unfold visitFn
              rw [h3]; exact h2
            · right
              have h3 := this.2
              unfold visitFn
              rw [h3]; exact h2
        have := expandBuild_re (env := env) (f := f) (a := c.args ++ inferred c.args ty) (t := []) ha
          (c := { c with traits := inferred c.args ty }) hfr.mode e hf (List.append_nil _)
        have hre : re (c.args ++ inferred c.args ty) [] { c with traits := inferred c.args ty } =
          re (c.args ++ inferred c.args ty) [] c := rfl
        rw [hre] at this
        dsimp only
        rw [this]
    | _ => simp [inferredFor, annotationOf] at hne
  | iFn name ret =>
    have e2 : retype true c.args (.mk (.iFn name ret) as ks) = .mk (.iFn name ret) as ks := rfl
    rw [e2]
    by_cases hk : ∃ asb ss, ks = [.mk .block asb ss]
    · obtain ⟨asb, ss, rfl⟩ := hk
      have ht := (fnAnalysis_traits (env := env) hfr name ret as [.mk .block asb ss] (.mk .block asb ss)).1
      rw [hta] at ht
      have hm := fnAnalysis_mode (env := env) (cx := c) (ret := ret) (b := .mk .block asb ss)
      have hs : Stays (fnAnalysis env c ret (.mk .block asb ss)) := by
        rcases hb with h | h
        · exact .inl (by rw [(Traits.fnAnalysis_args (env := env) c ret _).1]; exact h)
        · refine .inr fun k hk => ?_
          rw [hm] at hk
          cases ret with
          | none => rw [Option.map_none, Option.getD_none, hfr.mode] at hk; cases hk
          | some ty =>
            simp only [Option.map_some, Option.getD_some] at hk
            unfold retMode at hk
            rw [if_neg (by rw [hfr.lastMode]; decide)] at hk
            split at hk
            · injection hk with hk
              simp only [busy, returnsTwice, Bool.and_eq_true, decide_eq_true_eq] at h
              have := (fnCount_exits (cx := c) hroot false (.mk .block asb ss) {} h.1 rfl rfl).1
              unfold visitFn at hk
              rw [this] at hk
              omega
            · split at hk
              · cases hk
              · rw [hfr.mode] at hk; cases hk
            · rw [hfr.mode] at hk; cases hk
      exact fn_re hfr.traits name ret as asb ss _ ht.symm hne hs
    · have : ∀ c : Cx, expandParentStmt env (visit env f) c (.mk (.iFn name ret) as ks) =
          (c, .mk (.iFn name ret) as ks) := by
        intro c
        unfold expandParentStmt
        split
        · rename_i h; cases h
        · rename_i h; cases h
        · rename_i h; cases h; exact absurd ⟨_, _, rfl⟩ hk
        · rename_i h; cases h
        · rfl
      rw [this, this]
  | _ => simp [inferredFor, annotationOf] at hne

end Moved

/-- **C79.** Traits that are inferred from the type of a `let` or from the return type of a function can as well be
named in the attribute (and the type of the `let` be removed): the output is the same, or the same errors are
reported.  This is for all code, also with inner attributes, `#[nested]` and markers.

If the attribute names no traits at all, functions that return `impl Trait` and have fewer than two `return`s, and
`let`s of a closure with fewer than two `return`s and fewer than two `?`, are excluded: there `auto_enum` may leave
the code as it is (`C54_counterexample`). -/
theorem C79 (env : Env) (fuel h : Nat) (toks toks' : List Tok) (traits : List Path) (marker : Option Ident) (n : Node)
    (ha : IsArgs toks traits marker)
    (ha' : IsArgs toks' (traits ++ inferredFor env.typeAnalysis traits n) marker)
    (hb : traits ≠ [] ∨ busy (marker.getD "marker") n = true) :
    autoEnum env fuel h toks' (.stmt (retype env.typeAnalysis traits n)) = autoEnum env fuel h toks (.stmt n) := by
  by_cases hne : inferredFor env.typeAnalysis traits n = []
  · have hr : retype env.typeAnalysis traits n = n := by
      unfold retype
      split
      · rename_i s ty as ks
        rw [if_neg]
        rintro ⟨h1, h2⟩
        simp [inferredFor, annotationOf, h1] at hne
        exact h2 hne
      · rfl
    rw [hne, List.append_nil] at ha'
    rw [hr]
    unfold autoEnum Cx.new
    rw [(parseArgs_iff _ _ _).mpr ha, (parseArgs_iff _ _ _).mpr ha']
  · unfold autoEnum Cx.new
    rw [(parseArgs_iff _ _ _).mpr ha, (parseArgs_iff _ _ _).mpr ha']
    let c (m : String) : Cx :=
      { ident := enumIdent h, variants := [], marker := m, markers := [] ++ [m], root := true,
        hasChild := false, mode := .default, lastMode := .default, errs := [], args := traits,
        traits := [], panics := [], log := [] }
    have key : ∀ m, m = marker.getD "marker" →
        finish (expandParentStmt env (visit env fuel)
          (Traits.re (traits ++ inferredFor env.typeAnalysis traits n) [] (c m))
          (retype env.typeAnalysis traits n)) =
        finish (expandParentStmt env (visit env fuel) (c m) n) := by
      rintro m rfl
      exact (congrArg finish (Moved.stmt_re (env := env) (f := fuel) (c := c (marker.getD "marker"))
        ⟨rfl, rfl, rfl, rfl⟩ rfl n hne hb)).trans (Moved.finish_re _ _ _)
    cases marker with
    | none => exact key _ rfl
    | some m => exact key _ rfl

/-- `let x: impl Iterator = match z { 0 => { #[auto_enum] let y: impl Iterator = ..; 1 }, _ => 2 };` -/
def Ex.typedLets : Node := .mk (.sLocal (.typed "x" Ex.implIter)) [] [.mk .eMatch [] [Ex.var "z",
  Ex.arm "0" (exprBlock [Ex.innerLet [], tailS (Ex.lit "1")]), Ex.arm "_" (Ex.lit "2")]]

/-- The hypotheses are met by a `let` with another attribute inside; two enums are generated. -/
example : IsArgs [] [] none ∧ inferredFor Ex.taEnv.typeAnalysis [] Ex.typedLets = [.ofIdents ["Iterator"]] ∧
    IsArgs Ex.iterator [.ofIdents ["Iterator"]] none ∧ busy "marker" Ex.typedLets = true ∧
    retype Ex.taEnv.typeAnalysis [] Ex.typedLets ≠ Ex.typedLets ∧
    ∃ out, autoEnum Ex.taEnv 20 5 [] (.stmt Ex.typedLets) = .code out ∧
      decide (autoEnum Ex.taEnv 20 5 Ex.iterator (.stmt (retype Ex.taEnv.typeAnalysis [] Ex.typedLets)) = .code out ∧
        ctors "__Enum5" out = 2) = true :=
  ⟨(parseArgs_iff _ _ _).mp rfl, by decide +kernel, (parseArgs_iff _ _ _).mp rfl, by decide +kernel, by decide +kernel,
    Ex.of_check (by decide +kernel)⟩

/-- They are met by `#[auto_enum(Clone, fmt::Debug)]` on a function returning `impl Iterator`, and by a function with
two `return`s and no named trait. -/
example : inferredFor Ex.taEnv.typeAnalysis [.ofIdents ["Clone"], .ofIdents ["fmt", "Debug"]] (Ex.typedFn []) =
      [.ofIdents ["Iterator"]] ∧
    busy "marker" (.mk (.iFn "f" (some Ex.implIter)) [] [.mk .block [] [
      semiS (.mk .eIf [] [Ex.var "c", .mk .block [] [semiS (.mk .eReturn [] [Ex.lit "1"])]]),
      semiS (.mk .eReturn [] [Ex.lit "2"])]]) = true :=
  ⟨by decide +kernel, by decide +kernel⟩

/-- The exception is needed: with a single `return` the function is left as it is if the trait is inferred, and
rejected if it is named. -/
theorem C79_counterexample :
    busy "marker" Ex.lonely = false ∧
    inferredFor Ex.taEnv.typeAnalysis [] Ex.lonely = [.ofIdents ["Iterator"]] ∧
    retype Ex.taEnv.typeAnalysis [] Ex.lonely = Ex.lonely ∧
    autoEnum Ex.taEnv 20 5 Ex.iterator (.stmt Ex.lonely) ≠ autoEnum Ex.taEnv 20 5 [] (.stmt Ex.lonely) := by
  decide +kernel

end AutoEnums
