import Verif.Spec.Result
import Verif.Spec.Args

/-!
# Specification vocabulary: inner attributes

Nothing in this file refers to the model of the code.
-/

namespace AutoEnums.Spec

/-- The nodes that can carry an inner attribute: expressions and `let`s. -/
def mayCarry : Kind → Bool
  | .sLocal _ => true
  | k => isExpression k

/-- The first `#[auto_enum ..]` of a node. -/
def innerAttr (k : Kind) (as : List Attr) : Option Attr :=
  if mayCarry k then as.find? (named "auto_enum") else none

/-- Not Rust code: an expression statement without an expression. -/
def oddStatement (k : Kind) (ks : List Node) : Bool :=
  match k with
  | .sExpr _ => !(ks.length == 1 && ks.all isExprNode)
  | _ => false

mutual
/-- The inner attributes that are not in the region of another inner attribute. -/
def inners : Node → List Attr
  | .mk k as ks =>
    match innerAttr k as with
    | some a => [a]
    | none => if hidesCode k || oddStatement k ks then [] else innersL ks
def innersL : List Node → List Attr
  | [] => []
  | n :: ns => inners n ++ innersL ns
end

/-- The attribute declares the marker `name`. -/
def Declares (a : Attr) (name : Ident) : Prop :=
  ∃ toks traits, a.form = .list toks ∧ IsArgs toks traits (some name)

/-- Something the attribute can be put on: an expression, an expression statement, a `let` with an
initialiser, or a function. -/
def isTarget : Node → Bool
  | .mk (.sExpr _) _ [e] => isExprNode e
  | .mk (.sLocal _) _ (e :: _) => isExprNode e
  | .mk (.iFn _ _) _ [.mk .block _ _] => true
  | e => isExprNode e

end AutoEnums.Spec
