import Verif.Spec.Whole
import Verif.Spec.Result

/-!
# Specification vocabulary: code with the inputs of inner attributes cut out

The expansion of an attribute is described where it is not the business of another attribute: the
inputs of inner attributes are replaced by holes, and what becomes of the rest is described as if the
holes were expressions without a value.  Nothing in this file refers to the model of the code.
-/

namespace AutoEnums.Spec

/-- Stands for the input of an inner attribute: `continue ''`.  No such expression can be written, and
where it matters it counts as diverging. -/
def hole : Node := .mk (.eContinue (some "")) [] []

/-- Stands for a `let` with an inner attribute: `let;`. -/
def letHole : Node := .mk (.sLocal (.plain "")) [] []

/-- An expression with an inner attribute that is neither a path nor a call nor a macro call. -/
def apart : Kind → List Attr → Bool
  | .ePath _ _, _ | .eCall, _ | .eMacro _ _, _ => false
  | k, as => isExpression k && as.any (named "auto_enum")

/-- A `let` with an inner attribute. -/
def apartLet : Node → Bool
  | .mk (.sLocal _) as _ => as.any (named "auto_enum")
  | _ => false

mutual
/-- The code with holes in place of the inputs of inner attributes.  Attributes on paths, calls and
macro calls and on the last statement of a block, if it is a `let`, stay. -/
def outline : Node → Node
  | .mk k as ks =>
    if apart k as then hole
    else if hidesCode k then .mk k as ks
    else .mk k as (outlineL k.isBlockLike ks)
/-- The same for kids; `blk` tells whether they are the statements of a block. -/
def outlineL (blk : Bool) : List Node → List Node
  | [] => []
  | n :: ns =>
    (if blk && !ns.isEmpty && apartLet n then letHole else outline n) :: outlineL blk ns
end

mutual
/-- The first tree is the second one with something put into the holes, up to the names of the variants
of `en`. -/
inductive Fills (en : Ident) : Node → Node → Prop where
  | hole : isExprNode n = true → Fills en n hole
  | node : blurK en k' = blurK en k → FillsL en ks' ks → Fills en (.mk k' as ks') (.mk k as ks)
inductive FillsL (en : Ident) : List Node → List Node → Prop where
  | nil : FillsL en [] []
  | cons : Fills en n s → FillsL en ns ss → FillsL en (n :: ns) (s :: ss)
  | letHole : FillsL en ns ss → FillsL en (.mk (.sLocal p) as ks :: ns) (letHole :: ss)
end

/-- The same for the target of an attribute, which may be a closure. -/
def outlineTarget : Node → Node
  | .mk (.eClosure i) as [b] => .mk (.eClosure i) as [outline b]
  | e => outline e

/-- The input of an attribute with holes in place of the inputs of inner attributes. -/
def outlineInput : Node → Node
  | .mk (.sExpr semi) as [e] => .mk (.sExpr semi) as [outlineTarget e]
  | .mk (.sLocal p) as (e :: els) => .mk (.sLocal p) as (outlineTarget e :: els)
  | .mk (.iFn name ret) as [.mk .block asb ss] => .mk (.iFn name ret) as [.mk .block asb (outlineL true ss)]
  | e => outlineTarget e

/-! ## What becomes of an input outside of inner attributes -/

/-- What becomes of an attributed expression.  Whether `?` are desugared depends on all `?`, also those
in the inputs of inner attributes. -/
def treatOuterExpr (en : Ident) (m : String) (semi : Bool) (e : Node) : Node :=
  match semi, e with
  | false, .mk (.eClosure i) as [b] =>
    .mk (.eClosure i) as [treat (closureJob en m b) {} [] (closureJob en m b).start (outline b)]
  | semi, e => treat (exprJob en m semi) {} [] (exprJob en m semi).start (outline e)

/-- What becomes of an attributed statement, function or expression. -/
def treatOuter (en : Ident) (m : String) : Node → Node
  | .mk (.sExpr semi) as [e] => .mk (.sExpr semi) as [treatOuterExpr en m semi e]
  | .mk (.sLocal p) as (e :: els) => .mk (.sLocal p) as (treatOuterExpr en m false e :: els)
  | .mk (.iFn name ret) as [.mk .block asb ss] =>
    .mk (.iFn name ret) as [.mk .block asb (treatBody (fnJob en m ret (.mk .block asb ss)) (outlineL true ss))]
  | e => treatOuterExpr en m false e

/-- The code without the inputs of inner attributes is ordinary. -/
def ordinaryOuterExpr (en : Ident) (m : String) (semi : Bool) (e : Node) : Bool :=
  match semi, e with
  | false, .mk (.eClosure _) _ [b] =>
    shaped b && ordinaryIn (closureJob en m b) (closureJob en m b).start (outline b)
  | semi, e => ordinaryIn (exprJob en m semi) (exprJob en m semi).start (outline e)

/-- The same for a statement, function or expression that can be the target of the attribute. -/
def ordinaryOuter (en : Ident) (m : String) : Node → Bool
  | .mk (.sExpr semi) _ [e] => ordinaryOuterExpr en m semi e
  | .mk (.sLocal _) _ (e :: _) => ordinaryOuterExpr en m false e
  | .mk (.iFn _ ret) _ [.mk .block asb ss] =>
    shapedL ss && ordinaryBody (fnJob en m ret (.mk .block asb ss)) (outlineL true ss)
  | e => isExprNode e && ordinaryOuterExpr en m false e

end AutoEnums.Spec
