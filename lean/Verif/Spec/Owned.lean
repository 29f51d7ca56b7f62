import Verif.Spec.Outside
import Verif.Spec.Treat
import Verif.Visitor

/-!
# Specification vocabulary: regions of inner attributes and who treats them

Of the model of the code this file uses only the macro itself (`autoEnum`).
-/

namespace AutoEnums.Spec

/-- The node as input of the macro. -/
def asInput (semi : Bool) (n : Node) : Input :=
  match n.kind with
  | .sLocal _ => .stmt n
  | _ => if semi then .stmt (.mk (.sExpr true) [] [n]) else .expr n

/-- The output of the macro for the node as input. -/
def asOutput (semi : Bool) (n n' : Node) : Output :=
  match n.kind with
  | .sLocal _ => .code n'
  | _ => if semi then .code (.mk (.sExpr true) [] [n']) else .code n'

/-- `#[auto_enum]` with the given arguments and nothing around it expands the first node to the second. -/
def Expands (env : Env) : Expansion := fun toks semi n n' =>
  ∃ f h, autoEnum env f h toks (asInput semi n) = asOutput semi n n'

/-- The arguments are valid, and the same, provided that the node neither calls nor declares any of the
macros `ms`, except for the attribute's own marker. -/
def ExpandsApart (env : Env) (ms : List String) : Expansion := fun toks semi n n' =>
  ∃ traits mk, IsArgs toks traits mk ∧
    (callsNone ms (mk.getD "marker") (.ofIdents ["compile_error"]) →
    Apart ms (mk.getD "marker") n → Expands env toks semi n n')

/-- The region of an inner attribute. -/
structure Region where
  /-- Where it is. -/
  place : Where
  /-- Whether it is an expression followed by `;`. -/
  semi : Bool
  node : Node

mutual
/-- The regions that are not in the region of another inner attribute. -/
def regions (w : Where) (semi : Bool) : Node → List Region
  | .mk k as ks =>
    match innerAttr k as with
    | some _ => [⟨w, semi, .mk k as ks⟩]
    | none => if hidesCode k || oddStatement k ks then [] else regionsL (w.enter k) (endsIn k) ks
def regionsL (w : Where) (semi : Bool) : List Node → List Region
  | [] => []
  | n :: ns => regions w semi n ++ regionsL w semi ns
end

/-- The regions in an attributed expression.  The body of a closure whose value counts is a function of its
own. -/
def regionsOf : Bool → Node → List Region
  | false, .mk (.eClosure _) _ [b] => regions {} false b
  | _, e => regions {} false e

/-- The regions in the input of the macro. -/
def regionsIn : Node → List Region
  | .mk (.sExpr true) _ [e] => regionsOf true e
  | n => regionsOf false (targetOf n)

mutual
/-- All nodes of a tree. -/
def nodes : Node → List Node
  | .mk k as ks => .mk k as ks :: nodesL ks
def nodesL : List Node → List Node
  | [] => []
  | n :: ns => nodes n ++ nodesL ns
end

/-- `BreaksIn` any number of times. -/
inductive BreaksMany (en : Ident) : Node → Node → Prop where
  | refl : BreaksMany en n n
  | step : BreaksMany en a b → BreaksIn en b c → BreaksMany en a c

/-- What becomes of a region. -/
def Owned (X X' : Expansion) (J : Job) (ms : List String) (r : Region) (n' : Node) : Prop :=
  ∃ r', BreaksMany J.en r.node r' ∧ ∃ ks' vn vn',
    (if hidesCode r'.kind then ks' = r'.kids
      else OutsideL X J (r.place.enter r'.kind) (endsIn r'.kind) r'.kids ks') ∧
    IsVariant vn ∧ IsVariant vn' ∧ (innerAttr r'.kind r'.rawAttrs).isSome = true ∧
    Via X' J ms (r.place.enter r'.kind) r.semi vn vn' r'.kind r'.rawAttrs r'.kids ks' n'

/-- The job, without its branches. -/
def Job.flow (J : Job) : Job := { J with branches := false }

/-- A job where there is nothing to do. -/
def idleJob (en : Ident) : Job := ⟨en, "marker", false, false, false⟩

mutual
/-- There is no `break`. -/
def breakless : Node → Bool
  | .mk k _ ks => !isBreak k && breaklessL ks
def breaklessL : List Node → Bool
  | [] => true
  | n :: ns => breakless n && breaklessL ns
end

/-- The attribute neither treats `return`s nor `?`s, and has no custom marker. -/
def Job.branchesOnly (J : Job) : Prop := J.returns = false ∧ J.tries = false ∧ J.marker = "marker"

end AutoEnums.Spec
