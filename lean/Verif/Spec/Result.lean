import Verif.Spec.Whole

/-!
# Specification vocabulary: result positions

The expression whose value is the value of a target, found through blocks, `unsafe` blocks,
parentheses and receivers of method calls.  Nothing in this file refers to the model of the code.
-/

namespace AutoEnums.Spec

mutual
/-- The expression in result position; `()` for a block that does not end in an expression. -/
def resultOf : Node → Node
  | .mk k as ks =>
    match k, ks with
    | .eBlock _, ks | .eUnsafe, ks => lastOf ks
    | .eParen, [e] => resultOf e
    | .eMethodCall _, e :: _ => resultOf e
    | k, ks => .mk k as ks
/-- The expression in result position of some statements. -/
def lastOf : List Node → Node
  | [] => .mk .eTuple [] []
  | [.mk (.sExpr false) _ [e]] => resultOf e
  | [_] => .mk .eTuple [] []
  | _ :: s :: ss => lastOf (s :: ss)
end

/-- The target as an expression: the expression of a statement, the initialiser of a `let`, the body
of a function. -/
def targetOf : Node → Node
  | .mk (.sExpr _) _ [e] => e
  | .mk (.sLocal _) _ (e :: _) => e
  | .mk (.iFn _ _) _ [.mk .block _ ss] => .mk (.eBlock none) [] ss
  | e => e

/-- The job of an attributed expression whose value counts. -/
def jobOfExpr (en : Ident) (m : String) : Node → Job
  | .mk (.eClosure _) _ [b] => closureJob en m b
  | _ => exprJob en m false

/-- The job of an attributed input. -/
def jobOf (en : Ident) (m : String) : Node → Job
  | .mk (.iFn _ ret) _ [b] => fnJob en m ret b
  | .mk (.sExpr true) _ _ => exprJob en m true
  | n => jobOfExpr en m (targetOf n)

/-- The body of an attributed closure; other expressions as they are. -/
def bodyOf : Node → Node
  | .mk (.eClosure _) _ [b] => b
  | e => e

/-- The expression in which wrapping starts: the body of an attributed closure, or the target. -/
def startOf (n : Node) : Node := bodyOf (targetOf n)

/-- The result of the body of a closure; other expressions as they are. -/
def enterClosure : Node → Node
  | .mk (.eClosure _) _ [b] => resultOf b
  | e => e

/-- The expression whose value is the value of an input or of its expansion; a closure stands for its
body. -/
def resultIn (n : Node) : Node :=
  match n with
  | .mk (.iFn name ret) as ks => resultOf (targetOf (.mk (.iFn name ret) as ks))
  | n => enterClosure (resultOf (targetOf n))

/-- The expressions with branches. -/
def isBranching : Kind → Bool
  | .eMatch | .eIf | .eLoop _ => true
  | _ => false

end AutoEnums.Spec
