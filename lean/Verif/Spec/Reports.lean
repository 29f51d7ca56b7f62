import Verif.Spec.Whole
import Verif.Spec.Chain
import Verif.Spec.Result
import Verif.Args

/-!
# Specification vocabulary: the errors reported for an input

Which errors are reported for an input without inner attributes, in which order.  An error does not
end the expansion at once: nothing further is entered, but the helper attributes of the code around
the error are still looked at.  Nothing in this file refers to the model of the code except for the
names of the errors.
-/

namespace AutoEnums.Spec

mutual
/-- The branches to be wrapped are those of an `if` without a final `else`. -/
def lacksElse (J : Job) : Node → Bool
  | .mk k as ks =>
    J.branches && !diverges J.marker (.mk k as ks) &&
    match k, ks with
    | .eBlock _, ks | .eUnsafe, ks => lacksElseLast J ks
    | .eMethodCall _, e :: _ => lacksElse J e
    | .eParen, [e] => lacksElse J e
    | .eIf, ks => !hasElse (.mk .eIf as ks)
    | _, _ => false
/-- The same for the value of a list of statements. -/
def lacksElseLast (J : Job) : List Node → Bool
  | [] => false
  | [.mk (.sExpr false) _ [e]] => lacksElse J e
  | [_] => false
  | _ :: s :: ss => lacksElseLast J (s :: ss)
end

/-- The first attribute with this name has arguments. -/
def badForm (s : String) (as : List Attr) : Bool :=
  match as.find? (named s) with
  | some a => a.form != .path
  | none => false

/-- What is reported about `#[never]` and `#[rec]`. -/
def helperReports (k : Kind) (as : List Attr) : List Err :=
  if k.hasAttrs then
    (if badForm "never" as then [.neverNotPath] else []) ++
      (if as.any (named "rec") then [.recRemoved] else [])
  else []

/-- What `#[nested]` on a node refers to: the body of an arm, the initialiser of a `let`, and
otherwise the node itself. -/
def subject : Node → Option Node
  | .mk (.arm _) _ ks => ks.getLast?
  | .mk (.sLocal _) _ ks => ks.head?
  | n => some n

/-- What is reported about `#[nested]`. -/
def nestedReports (J : Job) (n : Node) : List Err :=
  match n.rawAttrs.find? (named "nested"), subject n with
  | some a, some e =>
    if a.form == .path then if lacksElse J e then [.missingElse] else [] else [.nestedNotPath]
  | _, _ => []

/-- What is reported about a node after its inside; `clean` tells that nothing was before.  A marker
is replaced by its argument, to which its attributes move; if something was reported before, they are
dropped instead. -/
def lateReports (J : Job) (clean : Bool) (k : Kind) (as : List Attr) (ks : List Node) : List Err :=
  match k with
  | .eMacro p _ =>
    if p = ⟨false, [⟨J.marker, none⟩]⟩ then
      match ks with
      | [.mk k' as' _] => if clean then helperReports k as else helperReports k' as'
      | _ => [.markerParse]
    else helperReports k as
  | _ => helperReports k as

mutual
/-- What is reported about a node and what is in it. -/
def reports (J : Job) : Node → List Err
  | .mk k as ks =>
    if carries k then
      let a := nestedReports J (.mk k as ks)
      let b := if a.isEmpty && !hidesCode k then reportsL J ks else []
      a ++ b ++ lateReports J (a ++ b).isEmpty k as ks
    else if hidesCode k then [] else reportsL J ks
/-- What is reported about a list of nodes: what is reported about the first of them about which
something is. -/
def reportsL (J : Job) : List Node → List Err
  | [] => []
  | n :: ns => if (reports J n).isEmpty then reportsL J ns else reports J n
end

/-- What is reported about an expression whose branches are to be wrapped. -/
def reportsFrom (J : Job) (e : Node) : List Err :=
  if lacksElse J e then [.missingElse] else reports J e

/-- The expression in which wrapping starts; for a statement ending in `;` the whole expression. -/
def entry : Node → Node
  | .mk (.sExpr true) _ [e] => e
  | n => startOf n

/-- What is reported about an attributed statement, function or expression, apart from the number of
branches. -/
def reportsInput (en : Ident) (m : String) (n : Node) : List Err :=
  reportsFrom (jobOf en m n) (entry n)

mutual
/-- The nodes of a tree outside of macro calls and nested items. -/
def parts : Node → List Node
  | .mk k as ks => .mk k as ks :: if hidesCode k then [] else partsL ks
def partsL : List Node → List Node
  | [] => []
  | n :: ns => parts n ++ partsL ns
end

/-- An expression, arm or `let` about which itself something is to be reported: `#[rec]`; `#[never]`
or `#[nested]` with arguments; `#[nested]` on an `if` without final `else`; a marker whose argument is
not an expression. -/
def faulty (J : Job) : Node → Bool
  | .mk k as ks => carries k &&
    !(nestedReports J (.mk k as ks) ++ lateReports J true k as ks).isEmpty

/-- Whether the message about too few branches is the one for statements ending in `;`. -/
def tooFewMode : Node → VisitLastMode
  | .mk (.sExpr true) _ _ => .never
  | _ => .default

end AutoEnums.Spec
