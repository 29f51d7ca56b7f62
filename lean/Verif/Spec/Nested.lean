import Verif.Spec.Within
import Verif.Spec.Skip
import Verif.Spec.Break

/-!
# Specification vocabulary: branches that are wrapped, wherever they are

The rules for the branches of an expression in result position, without saying which variants are used.
Nothing in this file refers to the model of the code.
-/

namespace AutoEnums.Spec

/-- The second node is the arm that the first becomes. -/
inductive ArmOf (en m : String) : Node → Node → Prop where
  /-- A skipped arm keeps its pattern, has a guard if it had one, and its body is not wrapped. -/
  | skipped : skipsArm m (.mk (.arm p) as (gs ++ [b])) = true → gs'.length = gs.length →
      (settled b = true → SameHead b b') →
      ArmOf en m (.mk (.arm p) as (gs ++ [b])) (.mk (.arm p) as' (gs' ++ [b']))
  /-- Any other arm keeps its pattern, has a guard if it had one, and its body is wrapped. -/
  | wrapped : skipsArm m (.mk (.arm p) as (gs ++ [b])) = false → gs'.length = gs.length →
      (settled b = true → SameHead b b') →
      ArmOf en m (.mk (.arm p) as (gs ++ [b])) (.mk (.arm p) as' (gs' ++ [construct [] en v b']))

/-- `ss'` are the statements of the branch `ss` of an `if` after the expansion. -/
inductive BranchOf (en m : String) : List Node → List Node → Prop where
  /-- A skipped branch keeps its number of statements; its final expression is not wrapped. -/
  | skipped : skipsBlock m ss = true → ss'.length = ss.length →
      (∀ init as e, ss = init ++ [.mk (.sExpr false) as [e]] → settled e = true →
        ∃ init' as' e', ss' = init' ++ [.mk (.sExpr false) as' [e']] ∧ SameHead e e') →
      BranchOf en m ss ss'
  /-- Any other branch is wrapped as a whole. -/
  | wrapped : skipsBlock m ss = false → ss'.length = ss.length →
      BranchOf en m ss [.mk (.sExpr false) [] [construct [] en v (.mk (.eBlock none) [] ss')]]

/-- The second node is the expression with branches that the first becomes. -/
inductive Branched (en m : String) : Node → Node → Prop where
  | arms : Aligned (ArmOf en m) arms arms' →
      Branched en m (.mk .eMatch as (s :: arms)) (.mk .eMatch as' (s' :: arms'))
  | noElse : BranchOf en m ss ss' →
      Branched en m (.mk .eIf as [c, .mk .block asb ss]) (.mk .eIf as' [c', .mk .block asb ss'])
  | else_ : BranchOf en m ss ss' → BranchOf en m ts ts' →
      Branched en m (.mk .eIf as [c, .mk .block asb ss, .mk (.eBlock lab) ase ts])
        (.mk .eIf as' [c', .mk .block asb ss', .mk (.eBlock lab) ase' ts'])
  | elseIf : BranchOf en m ss ss' → e.kind = .eIf → Branched en m e e' →
      Branched en m (.mk .eIf as [c, .mk .block asb ss, e]) (.mk .eIf as' [c', .mk .block asb ss', e'])
  /-- The `break`s that leave the loop, and are not excluded, are wrapped. -/
  | breaks : Aligned (fun a b => a.ours m = true → Constructs en b.value) (breaksIn l body) (breaksIn l body') →
      Branched en m (.mk (.eLoop l) as [body]) (.mk (.eLoop l) as' [body'])

end AutoEnums.Spec
