import Verif.Spec.Typing
import Verif.Spec.EvalMark

/-!
# Specification vocabulary: the types of markers, `#[nested]` and `#[never]`

Typing rules for code with markers, `#[nested]` and `#[never]`: `marker!(e)` and `#[nested] e` have the type of the
generated enum; the argument of a marker has any type, and so has each branch of an expression annotated `#[nested]`;
what is annotated `#[never]` has no value.  Nothing in this file refers to the model of the code.
-/

namespace AutoEnums.Spec

variable {T Sc : Type}

/-- The rule for `#[nested]`, if it is there: the type is that of the enum, whatever those of the branches. -/
def onNested (E : T) (b : Bool) (d : Judge T Sc) : Judge T Sc := fun Γ w =>
  if b then w = .is E ∧ d Γ .free else d Γ w

/-- An expression annotated `#[nested]`. -/
def nestedExpr (k : Kind) (as : List Attr) : Bool := isExpression k && marked "nested" as

/-- The rule for `#[nested]` in front of an arm or a `let`: it is about the body and the initialiser. -/
def onNestedKids (E : T) (k : Kind) (as : List Attr) (ds : List (Judge T Sc)) : List (Judge T Sc) :=
  match k, ds with
  | .arm _, [d] => [onNested E (marked "nested" as) d]
  | .arm _, [g, d] => [g, onNested E (marked "nested" as) d]
  | .sLocal _, d :: ds => onNested E (marked "nested" as) d :: ds
  | _, ds => ds

/-- What is expected of a value that is not wrapped, where nothing is expected of those that are: there is no such
value. -/
def Want.shut : Want T → Want T
  | .free => .never
  | w => w

/-- Inside an expression of kind `k` annotated `#[never]`: its `break`s are not wrapped, and if it is a `return`, nor is
that. -/
def Around.shut (Γ : Around T Sc) (k : Kind) : Around T Sc :=
  { Γ with
    targets := Γ.targets.map fun t => (t.1, t.2.1, t.2.2.shut)
    ret := match k with
      | .eReturn => Γ.ret.shut
      | _ => Γ.ret }

/-- An expression annotated `#[never]`. -/
def pledges (k : Kind) (as : List Attr) : Bool := isExpression k && marked "never" as

/-- The rule for `#[never]` in front of an expression or arm, if it is there: there is no value. -/
def onNever (b : Bool) (k : Kind) (as : List Attr) (d : Judge T Sc) : Judge T Sc := fun Γ w =>
  if b && marked "never" as then
    match k with
    | .arm _ => d Γ .never
    | k => if isExpression k then d (Γ.shut k) .never else d Γ w
  else d Γ w

mutual
/-- The node has a type that is up to expectations, where `m` is the marker, and what is annotated `#[never]` has no
value if `b`. -/
def typedAs (b : Bool) (R : Rules T Sc) (G : Generated T) (m : String) : Node → Judge T Sc
  | .mk k as ks =>
    if callsMacro m k && ks.length == 1 then
      confine k fun Γ w => (∃ t, TypeRules.kid (typedL R G ks) 0 Γ (.is t)) ∧ w.accepts G.type
    else onNested G.type (nestedExpr k as)
      (confine k (onNever b k as (TypeRules.node R G k ks (onNestedKids G.type k as (typedAsL b R G m ks)))))
def typedAsL (b : Bool) (R : Rules T Sc) (G : Generated T) (m : String) : List Node → List (Judge T Sc)
  | [] => []
  | n :: ns => typedAs b R G m n :: typedAsL b R G m ns
end

/-- `#[never]` has no effect on types. -/
abbrev typedIn (R : Rules T Sc) (G : Generated T) (m : String) : Node → Judge T Sc := typedAs false R G m
abbrev typedInL (R : Rules T Sc) (G : Generated T) (m : String) : List Node → List (Judge T Sc) := typedAsL false R G m

/-! ## Code whose types are compared -/

mutual
/-- All values of the expression come from markers and from expressions annotated `#[nested]`, looking through
blocks, parentheses, `match` and `if`; what has no value diverges syntactically or is annotated `#[never]`. -/
def delivers (m : String) : Node → Bool
  | .mk k as ks =>
    nestedExpr k as || pledges k as || (callsMacro m k && ks.length == 1) ||
    (abrupt m (.mk k as ks) && calm m (.mk k as ks) && !hasNested [.mk k as ks]) ||
    match k, ks with
    | .block, ss | .eUnsafe, ss | .eBlock none, ss => deliversLast m ss
    | .arm _, ks => marked "nested" as || marked "never" as || deliversLast m ks
    | .sExpr true, [.mk k as _] => pledges k as && !nestedExpr k as && !callsMacro m k
    | .sExpr false, [e] | .eParen, [e] | .eGroup, [e] => delivers m e
    | .eMatch, _ :: arms => deliversAll m arms
    | .eIf, [_, a, b] => delivers m a && delivers m b
    | _, _ => false
def deliversLast (m : String) : List Node → Bool
  | [] => false
  | [n] => delivers m n
  | _ :: n :: ns => deliversLast m (n :: ns)
def deliversAll (m : String) : List Node → Bool
  | [] => true
  | n :: ns => delivers m n && deliversAll m ns
end

mutual
/-- The result of the code (in the given role) is made up of branches of `match` and `if`, of `break`s of loops and
of markers, looking through blocks and parentheses; the same holds for what is annotated `#[nested]`; what is
annotated `#[never]` is not wrapped; markers have one argument, which contains no `break`, and no `return` if `return`s are wrapped; and what is in result
position but not wrapped `delivers`. -/
def typable (J : Job) (r : Role) : Node → Bool
  | .mk k as ks =>
    wrappable (role J r k as ks) k ks &&
    (!nestedExpr k as || role J r k as ks == .result) &&
    (r == .plain || role J r k as ks != .plain || delivers J.marker (.mk k as ks)) &&
    (!pledges k as || role J r k as ks == .plain) &&
    (!callsMacro J.marker k || (ks.length == 1 && ks.all (leavesNothing J))) &&
    (!isFrozen k || inert J k ks) &&
    (hidesCode k || isFrozen k ||
      typableL J (fun i => kidRole (role J r k as ks) k as ks.length i) ks)
def typableL (J : Job) (rs : Nat → Role) : List Node → Bool
  | [] => true
  | n :: ns => typable J (rs 0) n && typableL J (fun i => rs (i + 1)) ns
end

mutual
/-- The result of the code (in the given role) is made up of branches of `match` and `if` and of `break`s of loops,
looking through blocks and parentheses; there is no `#[nested]`; and nothing in closures and `async` blocks is
wrapped. -/
def checkable (J : Job) (r : Role) : Node → Bool
  | .mk k as ks =>
    wrappable (role J r k as ks) k ks &&
    !(carries k && marked "nested" as) &&
    (!isFrozen k || inert J k ks) &&
    (hidesCode k || isFrozen k ||
      checkableL J (fun i => kidRole (role J r k as ks) k as ks.length i) ks)
def checkableL (J : Job) (rs : Nat → Role) : List Node → Bool
  | [] => true
  | n :: ns => checkable J (rs 0) n && checkableL J (fun i => rs (i + 1)) ns
end

mutual
/-- There is a `?` outside of closures and `async` blocks. -/
def asks : Node → Bool
  | .mk k _ ks => k == .eTry || (!isFrozen k && asksL ks)
def asksL : List Node → Bool
  | [] => false
  | n :: ns => asks n || asksL ns
end

end AutoEnums.Spec
