import Verif.Spec.Result

/-!
# Specification vocabulary: skipped branches in the presence of inner attributes

`diverges` and `hasNested` for code that may contain inner `#[auto_enum]` attributes: an expression
with such an attribute is left to it.  Nothing in this file refers to the model of the code.
-/

namespace AutoEnums.Spec

/-- There is an inner attribute. -/
def inner (as : List Attr) : Bool := as.any (named "auto_enum")

mutual
/-- The expression is left alone: it diverges syntactically or has an inner attribute. -/
def exempt (m : String) : Node → Bool
  | .mk k as ks =>
    (k.hasAttrs && (marked "never" as || inner as)) ||
    match k, ks with
    | .eBlock _, ks | .eUnsafe, ks => exemptLast m ks
    | .eBreak _, _ | .eContinue _, _ | .eReturn, _ => true
    | .eMacro p _, _ => divergingMacro m p
    | .eMatch, _ :: arms => exemptArms m arms
    | .eTry, [e] => failing e
    | .eMethodCall _, e :: _ => exempt m e
    | .eParen, [e] => exempt m e
    | _, _ => false
/-- The last statement is left alone. -/
def exemptLast (m : String) : List Node → Bool
  | [] => false
  | [.mk (.sExpr _) _ [e]] => exempt m e
  | [.mk (.sLocal _) _ (e :: _)] => exempt m e
  | [.mk (.sItem _) _ _] => true
  | [.mk (.sMacro p _) _ _] => divergingMacro m p
  | [_] => false
  | _ :: s :: ss => exemptLast m (s :: ss)
/-- All arms are left alone. -/
def exemptArms (m : String) : List Node → Bool
  | [] => true
  | .mk (.arm _) as [b] :: ns => (marked "never" as || exempt m b) && exemptArms m ns
  | .mk (.arm _) as [_, b] :: ns => (marked "never" as || exempt m b) && exemptArms m ns
  | _ :: _ => false
end

mutual
/-- There is a `#[nested]` in the tree that is not in the region of an inner attribute, in a macro
call or in a nested item. -/
def nestedIn : Node → Bool
  | .mk k as ks =>
    match k with
    | .arm _ => marked "nested" as || nestedInL ks
    | k =>
      !(carries k && inner as) &&
        ((carries k && marked "nested" as) || (!hidesCode k && nestedInL ks))
def nestedInL : List Node → Bool
  | [] => false
  | n :: ns => nestedIn n || nestedInL ns
end

/-- The arm is not wrapped. -/
def exemptArm (m : String) (arm : Node) : Bool :=
  match arm with
  | .mk _ as ks =>
    marked "never" as || nestedIn arm ||
      match ks.getLast? with
      | some b => exempt m b
      | none => true

mutual
/-- On the way to the expression in result position (inclusive) there is no inner attribute and no
`#[nested]`. -/
def clearWay : Node → Bool
  | .mk k as ks =>
    !inner as && !marked "nested" as &&
    match k, ks with
    | .eBlock _, ks | .eUnsafe, ks => clearWayLast ks
    | .eParen, [e] => clearWay e
    | .eMethodCall _, e :: _ => clearWay e
    | _, _ => true
def clearWayLast : List Node → Bool
  | [] => true
  | [.mk (.sExpr false) _ [e]] => clearWay e
  | [_] => true
  | _ :: s :: ss => clearWayLast (s :: ss)
end

/-- An expression that stays what it is whatever is done to its parts: it is neither a macro call (which
a marker replaces), nor `e?`, nor has it an inner attribute. -/
def settled (e : Node) : Bool :=
  isExprNode e && !inner e.rawAttrs && (match e.kind with
    | .eMacro _ _ | .eTry => false
    | _ => true)

/-- The expression `b'` that `b` becomes is of the same kind; if it is a call then also the callee is
of the same kind, unless it may itself turn into something else.  In particular `b'` is no call of a
constructor unless `b` was. -/
def SameHead (b b' : Node) : Prop :=
  b'.kind = b.kind ∧ (b.kind = .eCall → ∀ f args, b.kids = f :: args → settled f = true →
    ∃ f' args', b'.kids = f' :: args' ∧ f'.kind = f.kind)

/-- `arms'` is the list of arms `arms` after the expansion: the bodies of the arms that are not
exempt, and only these, are wrapped, once each, in the variants number `i`, `i + 1`, ... of the enum
`en`. -/
inductive ArmsOf (en m : String) : Nat → List Node → List Node → Prop where
  | nil : ArmsOf en m i [] []
  /-- An exempt arm keeps its pattern, has a guard if it had one, and its body is not wrapped. -/
  | exempt : exemptArm m (.mk (.arm p) as (gs ++ [b])) = true → gs'.length = gs.length →
      (settled b = true → SameHead b b') → ArmsOf en m i arms arms' →
      ArmsOf en m i (.mk (.arm p) as (gs ++ [b]) :: arms) (.mk (.arm p) as' (gs' ++ [b']) :: arms')
  /-- Any other arm keeps its pattern, has a guard if it had one, and its body is wrapped. -/
  | wrapped : exemptArm m (.mk (.arm p) as (gs ++ [b])) = false → gs'.length = gs.length →
      ArmsOf en m (i + 1) arms arms' →
      ArmsOf en m i (.mk (.arm p) as (gs ++ [b]) :: arms)
        (.mk (.arm p) as' (gs' ++ [construct [] en ("__Variant" ++ toString i) b']) :: arms')

end AutoEnums.Spec
