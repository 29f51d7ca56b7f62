import Verif.Spec.Skip

/-!
# Specification vocabulary: `if` chains in result position

Nothing in this file refers to the model of the code.
-/

namespace AutoEnums.Spec

/-- An expression statement at the end consists of an expression. -/
def tailOk (ss : List Node) : Bool :=
  match ss.getLast? with
  | some (.mk (.sExpr false) _ [e]) => isExprNode e
  | _ => true

/-- `if` chains as the grammar has them: a condition and a block, followed by nothing, by `else` and a
block, or by `else` and another chain.  What follows `else` has no attributes. -/
def isChain : Node → Bool
  | .mk .eIf _ [_, .mk .block _ ss] => tailOk ss
  | .mk .eIf _ [_, .mk .block _ ss, e] =>
    tailOk ss && e.rawAttrs.isEmpty && (match e.kind with
      | .eBlock _ => tailOk e.kids
      | _ => isChain e)
  | _ => false
termination_by structural n => n

/-- The chain has a final `else`. -/
def hasElse : Node → Bool
  | .mk .eIf _ [_, _, e] =>
    match e.kind with
    | .eBlock _ => true
    | _ => hasElse e
  | _ => false
termination_by structural n => n

/-- A branch, given by its statements, that is not wrapped: if it ends in an expression, because this
expression is left alone or because there is a `#[nested]` in the branch; otherwise because the last
statement is left alone. -/
def exemptBlock (m : String) (ss : List Node) : Bool :=
  match ss.getLast? with
  | some (.mk (.sExpr false) _ [e]) => exempt m e || nestedInL ss
  | _ => exemptLast m ss

/-- `ss'` are the statements of the branch `ss` after the expansion, where the first variant not used
yet is number `i` before and number `j` after this branch. -/
inductive BlockOf (en m : String) : Nat → List Node → Nat → List Node → Prop where
  /-- An exempt branch keeps its number of statements; its final expression is not wrapped. -/
  | exempt : exemptBlock m ss = true → ss'.length = ss.length →
      (∀ init as e, ss = init ++ [.mk (.sExpr false) as [e]] → settled e = true →
        ∃ init' as' e', ss' = init' ++ [.mk (.sExpr false) as' [e']] ∧ SameHead e e') →
      BlockOf en m i ss i ss'
  /-- Any other branch is wrapped as a whole. -/
  | wrapped : exemptBlock m ss = false → ss'.length = ss.length →
      BlockOf en m i ss (i + 1) [.mk (.sExpr false) []
        [construct [] en ("__Variant" ++ toString i) (.mk (.eBlock none) [] ss')]]

/-- The second node is the chain, with a final `else`, that the first becomes; `i` is the number of the
first variant. -/
inductive ChainOf (en m : String) : Nat → Node → Node → Prop where
  | last : BlockOf en m i ss j ss' → BlockOf en m j ts l ts' →
      ChainOf en m i (.mk .eIf as [c, .mk .block asb ss, .mk (.eBlock lab) ase ts])
        (.mk .eIf as' [c', .mk .block asb ss', .mk (.eBlock lab) ase' ts'])
  | step : BlockOf en m i ss j ss' → ChainOf en m j e e' →
      ChainOf en m i (.mk .eIf as [c, .mk .block asb ss, e]) (.mk .eIf as' [c', .mk .block asb ss', e'])

end AutoEnums.Spec
