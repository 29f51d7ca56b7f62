import Verif.Lemmas.Traits
import Verif.ExamplesAccepted

/-! # C59: the requested traits do not influence the expansion -/

namespace AutoEnums

open Spec

/-- C59: if two attributes request traits (whichever and however many) and agree in `marker = ..`, then the same
input is accepted by both or rejected by both with the same errors, and the expansions differ only in the list
of traits of the generated enum and in whether the type of an annotated `let` is kept. -/
theorem C59 (env : Env) (fuel h : Nat) (toks toks' : List Tok) (traits traits' : List Path)
    (marker : Option Ident) (ha : IsArgs toks traits marker) (ha' : IsArgs toks' traits' marker)
    (ht : traits ≠ []) (ht' : traits' ≠ []) (input : Input) :
    dropTypeOut (hideTraitsOut ("__Enum" ++ toString h) (autoEnum env fuel h toks' input)) =
      dropTypeOut (hideTraitsOut ("__Enum" ++ toString h) (autoEnum env fuel h toks input)) :=
  Traits.autoEnum_loose ha ha' ht ht' input

/-- C59: without the feature `type_analysis`, and for everything but `let` statements with a type, only the list
of traits of the generated enum differs. -/
theorem C59_exact (env : Env) (fuel h : Nat) (toks toks' : List Tok) (traits traits' : List Path)
    (marker : Option Ident) (ha : IsArgs toks traits marker) (ha' : IsArgs toks' traits' marker)
    (ht : traits ≠ []) (ht' : traits' ≠ []) (input : Input)
    (hi : env.typeAnalysis = true → annotatedLet input = false) :
    hideTraitsOut ("__Enum" ++ toString h) (autoEnum env fuel h toks' input) =
      hideTraitsOut ("__Enum" ++ toString h) (autoEnum env fuel h toks input) :=
  Traits.autoEnum_traits ha ha' ht ht' input hi

/-- `#[auto_enum(Clone, fmt::Debug)]` -/
def Ex.cloneDebug : List Tok := [.ident "Clone", .comma, .ident "fmt", .colon2, .ident "Debug"]

theorem Ex.cloneDebug_args :
    IsArgs Ex.cloneDebug [.ofIdents ["Clone"], .ofIdents ["fmt", "Debug"]] none :=
  (parseArgs_iff _ _ _).mp rfl

/-- The hypotheses are met by two attributes that lead to different expansions, which become equal if the traits
of the enum are hidden. -/
example : IsArgs Ex.iterator [.ofIdents ["Iterator"]] none ∧
    IsArgs Ex.cloneDebug [.ofIdents ["Clone"], .ofIdents ["fmt", "Debug"]] none ∧
    annotatedLet (.stmt Ex.letIn) = false ∧
    autoEnum Ex.env 20 5 Ex.cloneDebug (.stmt Ex.letIn) ≠ autoEnum Ex.env 20 5 Ex.iterator (.stmt Ex.letIn) ∧
    hideTraitsOut "__Enum5" (autoEnum Ex.env 20 5 Ex.cloneDebug (.stmt Ex.letIn)) =
      hideTraitsOut "__Enum5" (autoEnum Ex.env 20 5 Ex.iterator (.stmt Ex.letIn)) :=
  ⟨Ex.iterator_args, Ex.cloneDebug_args, rfl, by decide +kernel,
    C59_exact Ex.env 20 5 _ _ _ _ none Ex.iterator_args Ex.cloneDebug_args (by simp) (by simp) _ (fun h => by
      cases h)⟩

/-- `let x: impl Iterator = if c { 1 } else { 2 };` -/
def Ex.annotated : Node := .mk (.sLocal (.typed "x" Ex.implIter)) [] [.mk .eIf [] [Ex.var "c",
  .mk .block [] [tailS (Ex.lit "1")], exprBlock [tailS (Ex.lit "2")]]]

/-- With `type_analysis` the type of a `let` statement is kept if the attribute repeats its trait, and removed
otherwise: `C59_exact` does not hold for annotated `let` statements. -/
theorem C59_annotation :
    dropTypeOut (autoEnum Ex.taEnv 20 5 Ex.iterator (.stmt Ex.annotated)) ≠
      autoEnum Ex.taEnv 20 5 Ex.iterator (.stmt Ex.annotated) ∧
    dropTypeOut (autoEnum Ex.taEnv 20 5 Ex.cloneDebug (.stmt Ex.annotated)) =
      autoEnum Ex.taEnv 20 5 Ex.cloneDebug (.stmt Ex.annotated) ∧
    hideTraitsOut "__Enum5" (autoEnum Ex.taEnv 20 5 Ex.cloneDebug (.stmt Ex.annotated)) ≠
      hideTraitsOut "__Enum5" (autoEnum Ex.taEnv 20 5 Ex.iterator (.stmt Ex.annotated)) := by
  decide +kernel

/-- An attribute that requests no traits is different: it leaves the code alone. -/
example : hideTraitsOut "__Enum5" (autoEnum Ex.env 20 5 [] (.stmt Ex.letIn)) ≠
    hideTraitsOut "__Enum5" (autoEnum Ex.env 20 5 Ex.iterator (.stmt Ex.letIn)) := by
  decide +kernel

/-- So is an attribute with another marker. -/
example : hideTraitsOut "__Enum5" (autoEnum Ex.env 20 5 [.ident "Iterator", .comma, .ident "marker", .eq, .ident "m"]
      (.expr (.mk .eMatch [] [Ex.lit "0", Ex.arm "0" (Ex.lit "1"), Ex.arm "1" (Ex.lit "2"),
        Ex.arm "_" (.mk (.eMacro (.ofIdents ["m"]) "x") [] [])]))) ≠
    hideTraitsOut "__Enum5" (autoEnum Ex.env 20 5 Ex.iterator
      (.expr (.mk .eMatch [] [Ex.lit "0", Ex.arm "0" (Ex.lit "1"), Ex.arm "1" (Ex.lit "2"),
        Ex.arm "_" (.mk (.eMacro (.ofIdents ["m"]) "x") [] [])]))) := by
  decide +kernel

end AutoEnums
