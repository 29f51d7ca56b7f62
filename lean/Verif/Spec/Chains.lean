import Verif.Spec.Frames
import Verif.Spec.Skip

/-!
# Specification: `if` chains as `match`es (C76)

`if c₁ { .. } else if c₂ { .. } else { .. }` and `match () { _ if c₁ => { .. } _ if c₂ => { .. } _ => { .. } }`.
-/

namespace AutoEnums.Spec

/-- The body of an arm as a block: `{ .. }` itself, or `{ e }`. -/
def asBlock : Node → List Node
  | .mk (.eBlock none) [] ss => ss
  | e => [.mk (.sExpr false) [] [e]]

/-- The arms `_ if c₁ => b₁, .., _ => bₙ` as `if c₁ { b₁ } else .. { bₙ }`. -/
def elseIf : List Node → Node
  | [.mk (.arm _) _ [b]] => .mk (.eBlock none) [] (asBlock b)
  | .mk (.arm _) _ [c, b] :: arms => .mk .eIf [] [c, .mk .block [] (asBlock b), elseIf arms]
  | _ => .mk .eTuple [] []

/-- `match .. { _ if c₁ => b₁, .., _ => bₙ }` as `if c₁ { b₁ } else .. { bₙ }`. -/
def asIf : Node → Node
  | .mk .eMatch _ (_ :: arms) => elseIf arms
  | n => n

/-- The arms are `_ if c => b`, without attributes, for expressions `c`, and after these `_ => b`.
All bodies satisfy `p`. -/
def guarded (p : Node → Bool) : List Node → Bool
  | [.mk (.arm _) as [b]] => as.isEmpty && p b
  | .mk (.arm _) as [c, b] :: arms => as.isEmpty && isExprNode c && p b && guarded p arms
  | _ => false

/-- A statement: an expression statement, a `let`, an item or a macro call. -/
def properStmt : Node → Bool
  | .mk (.sExpr _) _ [e] => isExprNode e
  | .mk (.sLocal _) _ _ | .mk (.sItem _) _ _ | .mk (.sMacro _ _) _ _ => true
  | _ => false

/-- `{ s₁ .. sₙ }`, without attributes and label. -/
def bareBlock : Node → Bool
  | .mk (.eBlock none) as ss => as.isEmpty && ss.all properStmt
  | _ => false

end AutoEnums.Spec
