import Verif.TypeAnalysis
import Verif.Spec.Types

/-! # The collected traits are the inferred ones -/

namespace AutoEnums

open Spec

theorem analysable_iff : ∀ s, s ∈ TRAITS ↔ s ∈ analysable := by
  have h1 : ∀ s ∈ TRAITS, s ∈ analysable := by decide +kernel
  have h2 : ∀ s ∈ analysable, s ∈ TRAITS := by decide +kernel
  exact fun s => ⟨h1 s, h2 s⟩

theorem plainPath_eq (p : Path) : plainPath p = bare p := by
  simp [plainPath, bare, Path.ofIdents]

theorem trimmed_eq (p : Path) : trimmed p = spelled p := rfl

theorem collectBounds_eq (args : List Path) (bs : List (Option Path)) :
    collectBounds args bs =
      ((bs.filterMap id).map bare).filter fun p => p ∉ args ∧ spelled p ∈ analysable := by
  induction bs with
  | nil => rfl
  | cons b bs ih =>
    cases b with
    | none => simpa [collectBounds] using ih
    | some p =>
      simp only [collectBounds, plainPath_eq, List.filterMap_cons, id, List.map_cons,
        List.filter_cons, ih, trimmed_eq]
      by_cases h : bare p ∉ args ∧ spelled (bare p) ∈ analysable
      · have : (TRAITS.contains (spelled (bare p)) && !args.contains (bare p)) = true := by
          simp [analysable_iff, h]
        rw [this]; simp only [h]; simp
      · have : (TRAITS.contains (spelled (bare p)) && !args.contains (bare p)) = false := by
          simp only [List.contains_eq_mem, analysable_iff, Bool.and_eq_false_iff]
          simp only [decide_eq_false_iff_not, Bool.not_eq_eq_eq_not, Bool.not_false, decide_eq_true_eq]
          by_cases h1 : bare p ∈ args
          · exact .inr h1
          · exact .inl fun h2 => h ⟨h1, h2⟩
        rw [this]; simp only [h]; simp

theorem collectTy_eq (args : List Path) (ty : Ty) : collectTy args ty = inferred args ty := by
  refine Ty.rec (motive_1 := fun ty => collectTy args ty = inferred args ty)
    (motive_2 := fun l => collectTyL args l =
      ((boundPathsL l).map bare).filter fun p => p ∉ args ∧ spelled p ∈ analysable) ?_ ?_ ?_ ty
  · intro k ks ih
    cases k <;>
      simp [collectTy, inferred, boundPaths, ih, collectBounds_eq, List.map_append,
        List.filter_append]
  · rfl
  · intro a l h1 h2
    simp [collectTyL, boundPathsL, h1, h2, inferred, List.map_append, List.filter_append]

end AutoEnums
