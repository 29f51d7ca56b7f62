import Verif.Spec.Eval

/-!
# Specification vocabulary: code whose divergence relies on nothing

Nothing in this file refers to the model of the code.
-/

namespace AutoEnums.Spec

/-- The last statement is an item. -/
def endsInItem (ss : List Node) : Bool :=
  match ss.getLast? with
  | some (.mk (.sItem _) _ _) => true
  | _ => false

/-- There is a `break 'l`. -/
def breaksTo (l : String) (ns : List Node) : Bool :=
  (visibleL ns).any fun x => x.1 == .eBreak (some l)

/-- No call of the macros `ms`, no labelled block that is left by `break`, and no block that ends in an item
(for the code itself; see `tame` for the code inside it). -/
def tameKind (ms : List String) (k : Kind) (ks : List Node) : Bool :=
  match k with
  | .eMacro p _ | .sMacro p _ => ms.all fun m => p != ⟨false, [⟨m, none⟩]⟩
  | .eBlock (some l) => !breaksTo l ks && !endsInItem ks
  | .eBlock none | .eUnsafe => !endsInItem ks
  | _ => true

mutual
/-- No `#[never]`, no inner attributes, no calls of the macros `ms`, no labelled blocks that are left by
`break`, and no blocks that end in an item. -/
def tame (ms : List String) : Node → Bool
  | .mk k as ks =>
    (as.all fun a => !named "never" a && !named "auto_enum" a) &&
    tameKind ms k ks &&
    (hidesCode k || tameL ms ks)
def tameL (ms : List String) : List Node → Bool
  | [] => true
  | n :: ns => tame ms n && tameL ms ns
end

/-! ## Code whose meaning is compared, described syntactically -/

/-- The code in result position is tame and syntactically diverges: the body of an arm, a block or an
expression. -/
def abrupt (m : String) (n : Node) : Bool :=
  tame [m] n && match n with
    | .mk (.arm _) _ [b] | .mk (.arm _) _ [_, b] => diverges m b
    | .mk .block _ ss => divergesLast m ss && !endsInItem ss
    | n => diverges m n

/-- A call of the macro `m` in expression position. -/
def callsMacro (m : String) (k : Kind) : Bool :=
  match k with
  | .eMacro p _ => p == ⟨false, [⟨m, none⟩]⟩
  | _ => false

/-- Nothing in this closure or `async` block is wrapped (see `inertCode`). -/
def inert (J : Job) (k : Kind) (ks : List Node) : Bool :=
  ((visibleL ks).all fun l => !callsMacro J.marker l.1) &&
  !hasNested ks &&
  (k != .eAsync || !J.returns || (visibleL ks).all fun l => l.1 != .eReturn)

mutual
/-- A syntactic condition under which the code (in the given role) is `Covered`: there is no
`#[never]`, no `#[nested]` and no call of the marker; the result is made up of branches of `match` and
`if` and of `break`s of loops, looking through blocks and parentheses; and what is skipped diverges
and is tame. -/
def comparable (J : Job) (r : Role) : Node → Bool
  | .mk k as ks =>
    wrappable (role J r k as ks) k ks &&
    (r == .plain || role J r k as ks != .plain || abrupt J.marker (.mk k as ks)) &&
    !marked "never" as && !marked "nested" as &&
    !callsMacro J.marker k &&
    (!isFrozen k || inert J k ks) &&
    (hidesCode k || isFrozen k ||
      comparableL J (fun i => kidRole (role J r k as ks) k as ks.length i) ks)
def comparableL (J : Job) (rs : Nat → Role) : List Node → Bool
  | [] => true
  | n :: ns => comparable J (rs 0) n && comparableL J (fun i => rs (i + 1)) ns
end

end AutoEnums.Spec
