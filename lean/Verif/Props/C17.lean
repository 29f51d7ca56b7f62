import Verif.TraceVisit
import Verif.Examples

/-! # C17: errors -/

namespace AutoEnums

/-- C17: a run that does not panic yields exactly the errors recorded on the way (by the attribute
and by all inner attributes, in the order in which they were recorded), or, if there are none, the
expansion. -/
theorem C17_errors (env : Env) (fuel h : Nat) (toks : List Tok) (input : Input) (cx : Cx)
    (r : Cx × Node) (hcx : Cx.new h toks true [] [] = .ok cx)
    (hr : expandInput env fuel cx input = some r) (hp : r.1.panics = []) :
    autoEnum env fuel h toks input = if r.1.log = [] then .code r.2 else .errors r.1.log := by
  have hlog : r.1.log = r.1.errs := by
    obtain ⟨n, _, ht⟩ := expandInput_trace hcx hr
    refine ht.log ?_
    unfold Cx.new at hcx
    split at hcx
    · cases hcx
    · dsimp only at hcx
      split at hcx
      · split at hcx <;> cases hcx; rfl
      · cases hcx; rfl
  simp only [autoEnum, hcx, hr, finish, hp, hlog, List.isEmpty_nil, if_true, List.isEmpty_iff]

/-- An attribute whose arguments do not parse yields that error only. -/
theorem C17_args (env : Env) (fuel h : Nat) (toks : List Tok) (input : Input) (e : Err)
    (hcx : Cx.new h toks true [] [] = .error e) :
    autoEnum env fuel h toks input = .errors [e] := by
  simp only [autoEnum, hcx]

/-- ```
{
    #[auto_enum(Iterator)]
    match a { _ => #[never(x)] #[rec] 1, _ => 2 };
    3
}
``` -/
def Ex.twoErrors : Node := exprBlock [
  .mk (.sExpr true) [] [.mk .eMatch [⟨.ofIdents [NAME], .list [.ident "Iterator"]⟩]
    [Ex.var "a", Ex.arm "_" (.mk (.eLit "1") [⟨.ofIdents [NEVER], .list [.ident "x"]⟩,
      ⟨.ofIdents ["rec"], .path⟩] []), Ex.arm "_" (Ex.lit "2")]],
  tailS (Ex.lit "3")]

/-- Two errors recorded in the context of an inner attribute: both are in the output. -/
example : autoEnum Ex.env 20 5 [] (.expr Ex.twoErrors) =
    .errors [.neverNotPath, .recRemoved] := by decide +kernel

/-- The hypotheses of `C17_errors` on this run. -/
example : ∃ cx r, Cx.new 5 [] true [] [] = .ok cx ∧
    expandInput Ex.env 20 cx (.expr Ex.twoErrors) = some r ∧ r.1.panics = [] ∧
    r.1.log = [.neverNotPath, .recRemoved] :=
  ⟨_, _, rfl, rfl, by decide +kernel, by decide +kernel⟩

/-- A run without errors. -/
example : ∃ cx r, Cx.new 5 Ex.iterator true [] [] = .ok cx ∧
    expandInput Ex.env 20 cx (.stmt Ex.letIn) = some r ∧ r.1.panics = [] ∧ r.1.log = [] :=
  ⟨_, _, rfl, rfl, by decide +kernel, by decide +kernel⟩

end AutoEnums
