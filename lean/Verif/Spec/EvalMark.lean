import Verif.Spec.Diverge

/-!
# Specification vocabulary: the meaning of markers and `#[nested]`

Markers and `#[nested]` say where values are wrapped; they have no meaning of their own: `marker!(e)`
means `(e)`.  Nothing in this file refers to the model of the code.
-/

namespace AutoEnums.Spec

mutual
/-- The code with `(e)` for `m!(e)`. -/
def withoutMarkers (m : String) : Node → Node
  | .mk k as ks =>
    if callsMacro m k && ks.length == 1 then .mk .eParen as ks
    else .mk k as (if hidesCode k then ks else withoutMarkersL m ks)
def withoutMarkersL (m : String) : List Node → List Node
  | [] => []
  | n :: ns => withoutMarkers m n :: withoutMarkersL m ns
end

/-- The value of the `i`-th of `n` kids, if it is evaluated last, is the value of the node. -/
def isTail (k : Kind) (n i : Nat) : Bool :=
  match k with
  | .block | .eUnsafe | .eBlock none | .arm _ => i + 1 == n
  | .sExpr false | .eParen | .eGroup => true
  | .eMatch => i != 0
  | .eIf => n == 3 && i != 0
  | _ => false

/-- The value of the `i`-th of `n` kids is dropped. -/
def isDropped (k : Kind) (n i : Nat) : Bool :=
  match k with
  | .block | .eUnsafe | .eBlock _ | .eConst | .eTryBlock => i + 1 != n
  | .sExpr semi => semi
  | .eLoop _ => true
  | .eWhile _ | .eForLoop _ _ => i != 0
  | _ => false

mutual
/-- The value of the node in the given role is wrapped, in the node or inside it: it is in result position
or annotated `#[nested]`; it is a marker; or it ends in such an expression. -/
def isWrapped (J : Job) (r : Role) : Node → Bool
  | .mk k as ks =>
    role J r k as ks != .plain ||
    (callsMacro J.marker k && ks.length == 1) ||
    someWrapped J (fun i => isTail k ks.length i) (fun i => kidRole (role J r k as ks) k as ks.length i) ks
/-- The value of one of the selected nodes is wrapped. -/
def someWrapped (J : Job) (sel : Nat → Bool) (rs : Nat → Role) : List Node → Bool
  | [] => false
  | n :: ns => (sel 0 && isWrapped J (rs 0) n) || someWrapped J (fun i => sel (i + 1)) (fun i => rs (i + 1)) ns
end

/-- Whether the value of the `i`-th kid of a node must be wrapped for that of the node to be (`w`); `none` if
it does not matter.  `r` is the role of the node itself. -/
def kidWrapped (J : Job) (ts : List Target) (r : Role) (w : Bool) (k : Kind) (as : List Attr) (ks : List Node)
    (i : Nat) : Option Bool :=
  if isDropped k ks.length i then none
  else match k with
    | .eBreak l => some (hits (through ts k as) l && isCallOf J.marker ks)
    | .eReturn => some (J.returns && isCallOf J.marker ks)
    | .eIf => some (isTail k ks.length i && w)
    | _ => some (isTail k ks.length i && w && r != .branch)

variable {B S : Type}

mutual
/-- The values of the code (in the given role) are wrapped consistently: those that are wrapped are in result
position or end up there through blocks, parentheses, branches, `break` and `return`, and all the others that
end up there are wrapped, too, or never arise; what is annotated `#[never]` or is the argument of a marker does
not `break` out of a loop whose value counts; and the argument of a marker does not `return`. -/
def Consistent (M : Machine B S) (J : Job) (ts : List Target) (r : Role) : Node → Prop
  | .mk k as ks =>
    wrappable (role J r k as ks) k ks = true ∧
    (isExpression k = true → marked "never" as = true → ∀ f x s l v s',
      eval M J.en f (withoutMarkers J.marker (.mk k as ks)) x s = some (.brk l v, s') → hits ts l = false) ∧
    (k = .eReturn → J.returns = true → marked "never" as = false) ∧
    (∀ e, callsMacro J.marker k = true → ks = [e] → ∀ f x s s',
      (∀ l v, eval M J.en f e x s = some (.brk l v, s') → hits ts l = false) ∧
      (∀ v, eval M J.en f e x s = some (.ret v, s') → J.returns = false)) ∧
    (isFrozen k = true → inertCode J k ks) ∧
    (hidesCode k = false → isFrozen k = false →
      ConsistentL M J (fun i => kidTargets ts (role J r k as ks) k as i)
        (fun i => kidRole (role J r k as ks) k as ks.length i)
        (fun i => kidWrapped J ts (role J r k as ks) (isWrapped J r (.mk k as ks)) k as ks i) ks)
def ConsistentL (M : Machine B S) (J : Job) (ts : Nat → List Target) (rs : Nat → Role)
    (ws : Nat → Option Bool) : List Node → Prop
  | [] => True
  | n :: ns =>
    Consistent M J (ts 0) (rs 0) n ∧
    (∀ b, ws 0 = some b → isWrapped J (rs 0) n = b ∨ NeverCompletes M J.en (withoutMarkers J.marker n)) ∧
    ConsistentL M J (fun i => ts (i + 1)) (fun i => rs (i + 1)) (fun i => ws (i + 1)) ns
end

/-! ## A syntactic description -/

/-- No `break` or `return` in the argument of a marker. -/
def leavesNothing (J : Job) (e : Node) : Bool :=
  (visible e).all fun l => !isBreak l.1 && (!J.returns || l.1 != .eReturn)

mutual
/-- A syntactic condition under which the code (in the given role) is `Consistent`: there is no `#[never]`;
arguments of markers contain no `break`, and no `return` if `return`s are wrapped; and what is not wrapped
although it ends up with the result diverges and is tame. -/
def consistent (J : Job) (ts : List Target) (r : Role) : Node → Bool
  | .mk k as ks =>
    wrappable (role J r k as ks) k ks &&
    !marked "never" as &&
    (!callsMacro J.marker k || ks.all (leavesNothing J)) &&
    (!isFrozen k || inert J k ks) &&
    (hidesCode k || isFrozen k ||
      consistentL J (fun i => kidTargets ts (role J r k as ks) k as i)
        (fun i => kidRole (role J r k as ks) k as ks.length i)
        (fun i => kidWrapped J ts (role J r k as ks) (isWrapped J r (.mk k as ks)) k as ks i) ks)
def consistentL (J : Job) (ts : Nat → List Target) (rs : Nat → Role) (ws : Nat → Option Bool) :
    List Node → Bool
  | [] => true
  | n :: ns =>
    consistent J (ts 0) (rs 0) n &&
    (ws 0 == none || ws 0 == some (isWrapped J (rs 0) n) || abrupt J.marker n) &&
    consistentL J (fun i => ts (i + 1)) (fun i => rs (i + 1)) (fun i => ws (i + 1)) ns
end

end AutoEnums.Spec
