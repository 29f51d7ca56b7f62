import Verif.Spec.Inner

/-!
# Specification vocabulary: helper attributes

Nothing in this file refers to the model of the code.
-/

namespace AutoEnums.Spec

/-- `#[auto_enum ..]`, `#[nested ..]` or `#[never ..]`. -/
def helper (a : Attr) : Bool := named "auto_enum" a || named "nested" a || named "never" a

/-- How many attributes are named `s`. -/
def countNamed (s : String) (as : List Attr) : Nat := (as.filter (named s)).length

/-- An expression; unlike `isExpression` this includes code that `syn` keeps verbatim. -/
def ExprKind (k : Kind) : Prop := isExpression k = true ∨ ∃ t, k = .eVerbatim t

/-- A statement consists of one expression. -/
def StmtOk (k : Kind) (kids : List Kind) : Prop := ∀ b, k = .sExpr b → ∃ k', kids = [k'] ∧ ExprKind k'

/-- No helper attribute.  (A predicate on kind, attributes and the kinds of the kids of a node.) -/
structure Bare (k : Kind) (as : List Attr) (kids : List Kind) : Prop where
  none : carries k = true → ∀ a ∈ as, helper a = false
  stmt : StmtOk k kids

mutual
/-- The code is bare, even inside macro calls and nested items. -/
def AllBare : Node → Prop
  | .mk k as ks => Bare k as (ks.map (·.kind)) ∧ AllBareL ks
def AllBareL : List Node → Prop
  | [] => True
  | n :: ns => AllBare n ∧ AllBareL ns
end

def macroCall : Kind → Bool
  | .eMacro _ _ => true
  | _ => false

mutual
/-- `P` holds of kind, attributes and kinds of the kids of all nodes outside of macro calls and nested
items.  The arguments of macro calls are bare; nothing is said about nested items. -/
def Throughout (P : Kind → List Attr → List Kind → Prop) : Node → Prop
  | .mk k as ks => P k as (ks.map (·.kind)) ∧ (macroCall k = true → AllBareL ks) ∧
    (hidesCode k = false → ThroughoutL P ks)
def ThroughoutL (P : Kind → List Attr → List Kind → Prop) : List Node → Prop
  | [] => True
  | n :: ns => Throughout P n ∧ ThroughoutL P ns
end

/-- An inner attribute that is not a dummy, at a place where it is looked at: not on an arm; not together
with `#[nested]` or `#[never]` on a `let`; not on a `let` with `else`.  (Initialisers are expressions.) -/
structure ProperInner (k : Kind) (as : List Attr) (kids : List Kind) (a : Attr) : Prop where
  traits : ∃ toks, a.form = .list toks ∧ ∀ m, ¬ IsArgs toks [] m
  noArm : ∀ p, k ≠ .arm p
  alone : ∀ p, k = .sLocal p → ∀ b ∈ as, named "nested" b = false ∧ named "never" b = false
  noElse : ∀ p, k = .sLocal p → kids.length ≤ 1 ∧ ∀ k' ∈ kids, ExprKind k'

/-- No helper attribute twice, no `#[nested]` or `#[never]` on closures, and inner attributes are
proper. -/
structure Neat (k : Kind) (as : List Attr) (kids : List Kind) : Prop where
  once : carries k = true → ∀ s ∈ ["auto_enum", "nested", "never"], countNamed s as ≤ 1
  inner : carries k = true → ∀ a ∈ as, named "auto_enum" a = true → ProperInner k as kids a
  closure : ∀ i, k = .eClosure i → ∀ a ∈ as, named "nested" a = false ∧ named "never" a = false
  stmt : StmtOk k kids

end AutoEnums.Spec
