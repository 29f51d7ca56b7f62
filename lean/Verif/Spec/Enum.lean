import Verif.Spec.Types
import Verif.Spec.Args

/-!
# Specification vocabulary: generated enums

Nothing in this file refers to the model of the code.
-/

namespace AutoEnums.Spec

/-- The names of the first `n` variants. -/
def variantNames (n : Nat) : List Ident := (List.range n).map fun i => "__Variant" ++ toString i

/-- An enum `enum __EnumH<__Variant0, ..> { __Variant0(__Variant0), .. }` with at least two
variants. -/
def WellFormed (e : GenEnum) : Prop :=
  (∃ h : Nat, e.name = "__Enum" ++ toString h) ∧
  ∃ n, 2 ≤ n ∧ e.generics = variantNames n ∧ e.variants = (variantNames n).map fun v => (v, v)

/-- `args` are the traits listed by the attribute itself (with arguments `toks`) or by one of the
`#[auto_enum(..)]` attributes inside its target. -/
def Requested (toks : List Tok) (input : Node) (args : List Path) : Prop :=
  ∃ ts m, IsArgs ts args m ∧
    (ts = toks ∨ ∃ a ∈ allAttrs input, a.path = ⟨false, [⟨"auto_enum", none⟩]⟩ ∧
      (a.form = .list ts ∨ a.form = .path ∧ ts = []))

/-- `ts` are traits that may be added to `args`: none, or, with the `type_analysis` feature, those
inferred from a type annotation occurring in the input. -/
def Inferred (analysis : Bool) (input : Node) (args ts : List Path) : Prop :=
  ts = [] ∨ analysis = true ∧
    ∃ l ∈ labels input, ∃ ty, annotationOf l = some ty ∧ ts = inferred args ty

end AutoEnums.Spec
