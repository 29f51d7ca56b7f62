import Verif.Spec.Inner
import Verif.Spec.Errors

/-!
# Specification vocabulary: what an attribute does in the region of an inner attribute

Nothing in this file refers to the model of the code.
-/

namespace AutoEnums.Spec

/-- A call of the attribute's own custom marker becomes a call of a constructor.  Other code stays. -/
def viaMarker (J : Job) (vn : Ident) : Node → Node
  | .mk (.eMacro p t) as [e] =>
    if J.marker ≠ "marker" ∧ p = ⟨false, [⟨J.marker, none⟩]⟩ then construct as J.en vn e
    else .mk (.eMacro p t) as [e]
  | n => n

/-- The value is a call of one of the macros. -/
def isCallOfAny (ms : List String) (ks : List Node) : Bool := ms.any (isCallOf · ks)

/-- A `return` or `?` that leaves the function of the attribute is wrapped or desugared, unless its value is
a call of one of the markers `ms`; `ks` are its kids and `ks'` what they have become.  Other code stays, with
its annotations. -/
def viaFlow (J : Job) (ms : List String) (w : Where) (vn : Ident) (k : Kind) (as : List Attr) (ks ks' : List Node) : Node :=
  match k with
  | .eReturn =>
    if J.returns && !w.closure && !marked "never" as && !isCallOfAny ms ks then
      match ks' with
      | [] => .mk k as [construct [] J.en vn (.mk .eTuple [] [])]
      | e :: es => .mk k as (construct [] J.en vn e :: es)
    else .mk k as ks'
  | .eTry =>
    match ks' with
    | [e] =>
      if J.tries && !w.closure && !w.tryBlock && !marked "never" as && !isCallOfAny ms ks
      then tryMatch as J.en vn e else .mk k as ks'
    | ks' => .mk k as ks'
  | k => .mk k as ks'

/-- An attribute with the given arguments, on the first node, gives the second one; the flag tells
whether the node is an expression followed by `;`. -/
abbrev Expansion := List Tok → Bool → Node → Node → Prop

/-- What becomes of a node in a region, given what has become of its kids: a `return` or `?` is wrapped or
desugared, the inner attribute, if any, is expanded, and a call of the custom marker is replaced. -/
def Via (X : Expansion) (J : Job) (ms : List String) (w : Where) (semi : Bool) (vn vn' : Ident) (k : Kind)
    (as : List Attr) (ks ks' : List Node) (n' : Node) : Prop :=
  match innerAttr k as with
  | none => n' = viaMarker J vn' (viaFlow J ms w vn k as ks ks')
  | some a => ∃ toks out, letArgs a.form = some toks ∧
      X toks semi (viaFlow J ms w vn k (dropFirst (named "auto_enum") as) ks ks') out ∧
      n' = viaMarker J vn' out

/-- The expressions in an expression statement are followed by `;`. -/
def endsIn : Kind → Bool
  | .sExpr semi => semi
  | _ => false

mutual
/-- What becomes of a node in the region of an inner attribute, as far as an enclosing attribute is
concerned. -/
def Outside (X : Expansion) (J : Job) (w : Where) (semi : Bool) : Node → Node → Prop
  | .mk k as ks, n' =>
    oddStatement k ks = true ∨
    ∃ ks' vn vn', (if hidesCode k then ks' = ks else OutsideL X J (w.enter k) (endsIn k) ks ks') ∧
      IsVariant vn ∧ IsVariant vn' ∧ Via X J [J.marker] (w.enter k) semi vn vn' k as ks ks' n'
def OutsideL (X : Expansion) (J : Job) (w : Where) (semi : Bool) : List Node → List Node → Prop
  | [], ns' => ns' = []
  | n :: ns, ns' => ∃ m ms, ns' = m :: ms ∧ Outside X J w semi n m ∧ OutsideL X J w semi ns ms
end

/-- The path is none of the macros `ms`, except perhaps `own`. -/
def callsNone (ms : List String) (own : String) (p : Path) : Prop :=
  ∀ m ∈ ms, p = ⟨false, [⟨m, none⟩]⟩ → m = own

/-- The attribute is not an `auto_enum` attribute that declares one of the markers `ms`. -/
def declaresNone (ms : List String) (a : Attr) : Prop :=
  named "auto_enum" a = true → ∀ m ∈ ms, ¬ Declares a m

mutual
/-- None of the macros `ms` is called in the code, except perhaps `own`, and no attribute declares one of
them. -/
def Apart (ms : List String) (own : String) : Node → Prop
  | .mk k as ks => (∀ p t, k = .eMacro p t ∨ k = .sMacro p t → callsNone ms own p) ∧
      (∀ a ∈ as, declaresNone ms a) ∧ ApartL ms own ks
def ApartL (ms : List String) (own : String) : List Node → Prop
  | [] => True
  | n :: ns => Apart ms own n ∧ ApartL ms own ns
end

/-! ## Branch analysis -/

/-- The optional value of a `break` in a call of a constructor; without one, `()` is. -/
def inCtor (en vn : Ident) : List Node → List Node
  | [] => [construct [] en vn (.mk .eTuple [] [])]
  | e :: es => construct [] en vn e :: es

/-- The last node in a call of a constructor. -/
def lastInCtor (en vn : Ident) : List Node → List Node
  | [] => []
  | [e] => [construct [] en vn e]
  | e :: e' :: es => e :: lastInCtor en vn (e' :: es)

/-- The statements in a call of a constructor. -/
def allInCtor (en vn : Ident) (ss : List Node) : List Node :=
  [.mk (.sExpr false) [] [construct [] en vn (.mk (.eBlock none) [] ss)]]

mutual
/-- The second is the first with the values of some `break`s in calls of constructors. -/
def BreaksIn (en : Ident) : Node → Node → Prop
  | .mk k as ks, n' => ∃ ks', BreaksInL en ks ks' ∧
      (n' = .mk k as ks' ∨ ∃ l vn, k = .eBreak l ∧ IsVariant vn ∧ n' = .mk k as (inCtor en vn ks'))
def BreaksInL (en : Ident) : List Node → List Node → Prop
  | [], ns' => ns' = []
  | n :: ns, ns' => ∃ m ms, ns' = m :: ms ∧ BreaksIn en n m ∧ BreaksInL en ns ms
end

mutual
/-- The second is the first with some branches in calls of constructors.  What carries an inner attribute
is unchanged, except for the values of `break`s in it. -/
def Analysed (en : Ident) : Node → Node → Prop
  | .mk k as ks, n' =>
    ((innerAttr k as).isSome = true → BreaksIn en (.mk k as ks) n') ∧
    ∃ ks' vn, AnalysedL en ks ks' ∧ IsVariant vn ∧
      (n' = .mk k as ks' ∨ (∃ l, k = .eBreak l ∧ n' = .mk k as (inCtor en vn ks')) ∨
       (∃ p, k = .arm p ∧ n' = .mk k as (lastInCtor en vn ks')) ∨
       ((k = .block ∨ ∃ l, k = .eBlock l) ∧ n' = .mk k as (allInCtor en vn ks')))
def AnalysedL (en : Ident) : List Node → List Node → Prop
  | [], ns' => ns' = []
  | n :: ns, ns' => ∃ m ms, ns' = m :: ms ∧ Analysed en n m ∧ AnalysedL en ns ms
end

/-- What follows `else` has no attributes (the grammar has none there). -/
def bareElse : Node → Bool
  | .mk .eIf _ [_, _, e] => e.rawAttrs.isEmpty
  | _ => true

mutual
/-- What follows `else` has no attributes, anywhere. -/
def elseBare : Node → Bool
  | .mk k as ks => bareElse (.mk k as ks) && elseBareL ks
def elseBareL : List Node → Bool
  | [] => true
  | n :: ns => elseBare n && elseBareL ns
end

end AutoEnums.Spec
