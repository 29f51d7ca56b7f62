import Verif.Visitor
import Verif.Spec.Tidy

/-!
# Specification: operands (C70)

Expressions in which the macro has nothing to do, and the replacement of the literals of a piece of code by
such expressions.
-/

namespace AutoEnums.Spec

/-- No attribute is one of the macro's. -/
def noHelp (as : List Attr) : Bool := as.all fun a => !helper a && !named "rec" a

/-- Inside of a closure? -/
def closes : Kind → Bool
  | .eClosure _ => true
  | _ => false

/-- The node itself is neither control flow that leaves the code around it, nor a macro call that could be a
marker.  `closed`: inside of a closure, where `return`, `?` and `break` stay. -/
def stillHere (closed : Bool) : Kind → Bool
  | .eReturn | .eTry | .eBreak _ => closed
  | .eMacro p _ => decide (p.segs.length ≠ 1)
  | _ => true

mutual
/-- Code without `return`, `?` and `break` outside of closures, without macro calls other than those by
qualified names, and without attributes of the macro. -/
def still (closed : Bool) : Node → Bool
  | .mk k as ks => noHelp as && stillHere closed k && stillL (closed || closes k) ks
def stillL (closed : Bool) : List Node → Bool
  | [] => true
  | n :: ns => still closed n && stillL closed ns
end

/-- The last name of a path. -/
def lastName (p : Path) : Option Ident := p.segs.getLast?.map (·.ident)

/-- The expression is not a path that ends with `Err`. -/
def notErr : Node → Bool
  | .mk (.ePath _ p) _ _ => decide (lastName p ≠ some "Err")
  | _ => true

/-- An operand: an expression other than a branch, block, closure, jump, `?` or macro call, not `None` or `Err(..)`, with
nothing to do for the macro inside.  Of a method call, the receiver is an operand. -/
def operand : Node → Bool
  | .mk k as ks => as.isEmpty && match k, ks with
    | .eMethodCall _, r :: args => operand r && stillL false args
    | .eParen, [e] => operand e
    | .ePath _ p, ks => decide (lastName p ≠ some "None") && decide (lastName p ≠ some "Err") && stillL false ks
    | .eCall, f :: args => notErr f && stillL false (f :: args)
    | .eArray, ks | .eAssign, ks | .eAsync, ks | .eAwait, ks | .eBinary _, ks | .eCast _, ks | .eConst, ks
    | .eField _, ks | .eForLoop _ _, ks | .eGroup, ks | .eIndex, ks | .eInfer, ks | .eLet _, ks | .eLit _, ks
    | .eRange, ks | .eReference, ks | .eRepeat, ks | .eStruct _, ks | .eTuple, ks | .eUnary _, ks
    | .eWhile _, ks | .eYield, ks => stillL false ks
    | _, _ => false
termination_by structural n => n

mutual
/-- The code with its literals replaced; their attributes stay. -/
def fill (σ : String → Node) : Node → Node
  | .mk (.eLit s) as [] => .mk (σ s).kind as (σ s).kids
  | .mk k as ks => .mk k as (fillL σ ks)
def fillL (σ : String → Node) : List Node → List Node
  | [] => []
  | n :: ns => fill σ n :: fillL σ ns
end

def fillInput (σ : String → Node) : Input → Input
  | .stmt n => .stmt (fill σ n)
  | .expr n => .expr (fill σ n)
  | .invalid => .invalid

mutual
/-- How deep the tree is. -/
def depth : Node → Nat
  | .mk _ _ ks => depthL ks + 1
def depthL : List Node → Nat
  | [] => 0
  | n :: ns => max (depth n) (depthL ns)
end

end AutoEnums.Spec
