import Verif.Spec.Edit
import Verif.Spec.Flow

/-!
# Specification vocabulary: what becomes of a tree

A description of the expansion of code without inner attributes in one pass from the top down.  The
code itself makes several passes: it wraps the branches of the result expression, walks through the
tree to treat `return`, `?`, markers and annotations, and on the way starts further passes at
`#[nested]` expressions and result loops.  Nothing in this file refers to the model of the code.
-/

namespace AutoEnums.Spec

/-! ## Vocabulary -/

/-- The attributes contain `#[s]`. -/
def marked (s : String) (as : List Attr) : Bool := as.any fun a => named s a && a.form == .path

/-- Expressions with attributes. -/
def isExpression : Kind → Bool
  | .eVerbatim _ | .block | .arm _ | .sExpr _ | .sLocal _ | .sItem _ | .sMacro _ _ | .iFn _ _ => false
  | _ => true

/-- The nodes that `#[never]` and `#[nested]` can annotate: expressions, arms and `let`s. -/
def carries : Kind → Bool
  | .arm _ | .sLocal _ => true
  | k => isExpression k

/-- The path is one of the given ones, ignoring generic arguments and a leading `::`. -/
def isOneOf (l : List (List Ident)) (p : Path) : Bool := l.contains (p.segs.map (·.ident))

/-- `panic!`, `unreachable!` or the marker `m`. -/
def divergingMacro (m : String) (p : Path) : Bool :=
  isOneOf [["panic"], ["std", "panic"], ["core", "panic"],
    ["unreachable"], ["std", "unreachable"], ["core", "unreachable"]] p ||
  p == ⟨false, [⟨m, none⟩]⟩

/-- `None` or `Err(..)`. -/
def failing : Node → Bool
  | .mk (.ePath false p) _ _ =>
    isOneOf [["None"], ["std", "option", "Option", "None"], ["core", "option", "Option", "None"]] p
  | .mk .eCall _ [.mk (.ePath false p) _ _, _] =>
    isOneOf [["Err"], ["std", "result", "Result", "Err"], ["core", "result", "Result", "Err"]] p
  | _ => false

mutual
/-- The expression syntactically diverges: it is annotated `#[never]`; it is a `break`, `continue`
or `return`; it is a call of `panic!`, `unreachable!` or the marker `m`; it is `None?` or
`Err(..)?`; or it is a block ending in such an expression, a `match` all of whose arms are, or a
method call on or parentheses around such an expression. -/
def diverges (m : String) : Node → Bool
  | .mk k as ks =>
    (k.hasAttrs && marked "never" as) ||
    match k, ks with
    | .eBlock _, ks | .eUnsafe, ks => divergesLast m ks
    | .eBreak _, _ | .eContinue _, _ | .eReturn, _ => true
    | .eMacro p _, _ => divergingMacro m p
    | .eMatch, _ :: arms => divergesArms m arms
    | .eTry, [e] => failing e
    | .eMethodCall _, e :: _ => diverges m e
    | .eParen, [e] => diverges m e
    | _, _ => false
/-- The last statement diverges: an expression or the initialiser of a `let`; nested items are
counted as diverging. -/
def divergesLast (m : String) : List Node → Bool
  | [] => false
  | [.mk (.sExpr _) _ [e]] => diverges m e
  | [.mk (.sLocal _) _ (e :: _)] => diverges m e
  | [.mk (.sItem _) _ _] => true
  | [.mk (.sMacro p _) _ _] => divergingMacro m p
  | [_] => false
  | _ :: s :: ss => divergesLast m (s :: ss)
/-- All arms diverge. -/
def divergesArms (m : String) : List Node → Bool
  | [] => true
  | .mk (.arm _) as [b] :: ns => (marked "never" as || diverges m b) && divergesArms m ns
  | .mk (.arm _) as [_, b] :: ns => (marked "never" as || diverges m b) && divergesArms m ns
  | _ :: _ => false
end

/-- Some expression, arm or `let` among these nodes or inside them (but not in macro calls or
nested items) is annotated `#[nested]`. -/
def hasNested (ns : List Node) : Bool :=
  (visibleL ns).any fun l => carries l.1 && marked "nested" l.2

/-- An arm of a result `match` that is not wrapped. -/
def skipsArm (m : String) (arm : Node) : Bool :=
  match arm with
  | .mk _ as ks =>
    marked "never" as || hasNested [arm] ||
      match ks.getLast? with
      | some b => diverges m b
      | none => true

/-- A branch of a result `if`, given by its statements, that is not wrapped. -/
def skipsBlock (m : String) (ss : List Node) : Bool :=
  match ss.getLast? with
  | some (.mk (.sExpr false) _ [e]) => diverges m e || hasNested ss
  | _ => divergesLast m ss

/-! ## Loops and labels -/

/-- Something a `break` can leave. -/
structure Target where
  label : Option String
  /-- A loop rather than a labelled block. -/
  isLoop : Bool
  /-- The `break`s of this loop are wrapped. -/
  ours : Bool
deriving DecidableEq, Repr

/-- Whether a `break` with the given label, enclosed by these targets (innermost first), leaves a
loop whose `break`s are wrapped. -/
def hits : List Target → Option String → Bool
  | [], _ => false
  | t :: ts, none => if t.isLoop then t.ours else hits ts none
  | t :: ts, some l => if t.label = some l then t.ours else hits ts (some l)

/-! ## Positions -/

/-- What the parent says about the position of a node. -/
inductive Role where
  | plain
  /-- Its value is the value of the whole expression. -/
  | result
  /-- It is a branch of a `match` or `if` in result position. -/
  | branch
deriving DecidableEq, Repr

/-- What is asked for. -/
structure Job where
  /-- The name of the enum. -/
  en : Ident
  marker : String
  /-- Branches are wrapped. -/
  branches : Bool
  /-- `return`s are wrapped. -/
  returns : Bool
  /-- `?`s are desugared. -/
  tries : Bool
deriving DecidableEq, Repr

/-- The role of a node, given the one assigned by its parent: `#[nested]` puts an expression in
result position; diverging expressions and skipped branches are left alone. -/
def role (J : Job) (r : Role) (k : Kind) (as : List Attr) (ks : List Node) : Role :=
  if J.branches = false then .plain
  else match r, k with
    | .branch, .arm _ => if skipsArm J.marker (.mk k as ks) then .plain else .branch
    | .branch, .block => if skipsBlock J.marker ks then .plain else .branch
    | .branch, .eBlock _ => if skipsBlock J.marker ks then .plain else .branch
    | .branch, .eIf => .branch
    | .branch, _ => .plain
    | .result, _ => if diverges J.marker (.mk k as ks) then .plain else .result
    | .plain, _ =>
      if isExpression k && marked "nested" as && !diverges J.marker (.mk k as ks) then .result
      else .plain

/-- The role assigned to the `i`-th of `n` kids. -/
def kidRole (r : Role) (k : Kind) (as : List Attr) (n i : Nat) : Role :=
  match k with
  | .eBlock _ | .eUnsafe => if r = .result ∧ i + 1 = n then .result else .plain
  | .sExpr false | .eParen => if r = .result then .result else .plain
  | .eMethodCall _ => if r = .result ∧ i = 0 then .result else .plain
  | .eMatch => if r = .result ∧ i ≠ 0 then .branch else .plain
  | .eIf => if r ≠ .plain ∧ i ≠ 0 then .branch else .plain
  | .arm _ => if marked "nested" as ∧ i + 1 = n then .result else .plain
  | .sLocal _ => if marked "nested" as ∧ i = 0 then .result else .plain
  | _ => .plain

/-- The enclosing targets as seen from inside an annotated expression. -/
def through (ts : List Target) (k : Kind) (as : List Attr) : List Target :=
  if isExpression k && marked "never" as then ts.map ({ · with ours := false }) else ts

/-- The targets enclosing the `i`-th kid.  (The iterated expression of a `for` is outside of it.) -/
def kidTargets (ts : List Target) (r : Role) (k : Kind) (as : List Attr) (i : Nat) : List Target :=
  match k with
  | .eClosure _ | .eAsync => []
  | .eLoop l => ⟨l, true, r = .result⟩ :: through ts k as
  | .eWhile l => ⟨l, true, false⟩ :: through ts k as
  | .eForLoop l _ => if i = 0 then through ts k as else ⟨l, true, false⟩ :: through ts k as
  | .eBlock (some l) => ⟨some l, false, false⟩ :: through ts k as
  | _ => through ts k as

/-! ## The result -/

/-- Without the first attribute satisfying `p`. -/
def dropFirst (p : Attr → Bool) : List Attr → List Attr
  | [] => []
  | a :: as => if p a then as else a :: dropFirst p as

/-- Without helper attributes. -/
def strip (as : List Attr) : List Attr := dropFirst (named "never") (dropFirst (named "nested") as)

/-- A call of a constructor (any variant). -/
def ctor (J : Job) (as : List Attr) (e : Node) : Node := construct as J.en "" e

/-- The optional value is wrapped; without one, `()` is. -/
def wrapHead (J : Job) : List Node → List Node
  | [] => [ctor J [] (.mk .eTuple [] [])]
  | e :: es => ctor J [] e :: es

/-- The last node is wrapped. -/
def wrapLast (J : Job) : List Node → List Node
  | [] => []
  | [e] => [ctor J [] e]
  | e :: e' :: es => e :: wrapLast J (e' :: es)

/-- The statements of a block are wrapped together. -/
def wrapAll (J : Job) (ss : List Node) : List Node :=
  [.mk (.sExpr false) [] [ctor J [] (.mk (.eBlock none) [] ss)]]

/-- The value is a call of the macro `m`. -/
def isCallOf (m : String) : List Node → Bool
  | .mk (.eMacro p _) _ _ :: _ => p == ⟨false, [⟨m, none⟩]⟩
  | _ => false

/-- The new node, given the new kids `ks'`. -/
def assemble (J : Job) (w : Where) (ts : List Target) (r : Role) (k : Kind) (as : List Attr)
    (ks ks' : List Node) : Node :=
  let as' := if carries k then strip as else as
  match k with
  | .eReturn =>
    if J.returns && !w.closure && !marked "never" as && !isCallOf J.marker ks
    then .mk k as' (wrapHead J ks') else .mk k as' ks'
  | .eBreak l =>
    if hits (through ts k as) l && !isCallOf J.marker ks then .mk k as' (wrapHead J ks')
    else .mk k as' ks'
  | .eTry =>
    match ks' with
    | [e] =>
      if J.tries && !w.closure && !w.tryBlock && !marked "never" as && !isCallOf J.marker ks
      then tryMatch as' J.en "" e else .mk k as' ks'
    | ks' => .mk k as' ks'
  | .eMacro p _ =>
    match ks with
    | [e] => if p = ⟨false, [⟨J.marker, none⟩]⟩ then ctor J as' e else .mk k as' ks
    | ks => .mk k as' ks
  | .arm _ => .mk k as' (if r = .branch then wrapLast J ks' else ks')
  | .block | .eBlock _ => .mk k as' (if r = .branch then wrapAll J ks' else ks')
  | k => .mk k as' ks'

mutual
/-- What becomes of a node in the given role. -/
def treat (J : Job) (w : Where) (ts : List Target) (r : Role) : Node → Node
  | .mk k as ks =>
    assemble J (w.enter k) ts (role J r k as ks) k as ks
      (if hidesCode k then ks
       else treatL J (w.enter k) (fun i => kidTargets ts (role J r k as ks) k as i)
        (fun i => kidRole (role J r k as ks) k as ks.length i) ks)
/-- What becomes of the kids, whose targets and roles are given by position. -/
def treatL (J : Job) (w : Where) (ts : Nat → List Target) (rs : Nat → Role) :
    List Node → List Node
  | [] => []
  | n :: ns =>
    treat J w (ts 0) (rs 0) n :: treatL J w (fun i => ts (i + 1)) (fun i => rs (i + 1)) ns
end

/-! ## Up to the names of variants -/

/-- Constructors of `en` without the name of the variant. -/
def blurK (en : Ident) : Kind → Kind
  | .ePath false ⟨false, [⟨e, none⟩, ⟨v, none⟩]⟩ =>
    if e = en then .ePath false (variantPath en "") else .ePath false ⟨false, [⟨e, none⟩, ⟨v, none⟩]⟩
  | k => k

mutual
def blur (en : Ident) : Node → Node
  | .mk k as ks => .mk (blurK en k) as (blurL en ks)
def blurL (en : Ident) : List Node → List Node
  | [] => []
  | n :: ns => blur en n :: blurL en ns
end

/-- The trees are equal up to the names of the variants of `en`.  (Which variants are used is the
subject of C01.) -/
def Alike (en : Ident) (a b : Node) : Prop := blur en a = blur en b

/-! ## Ordinary code -/

/-- A statement. -/
def isStatement : Kind → Bool
  | .sExpr _ | .sLocal _ | .sItem _ | .sMacro _ _ => true
  | _ => false

def isExprNode (n : Node) : Bool :=
  match n.kind with
  | .block | .arm _ | .sExpr _ | .sLocal _ | .sItem _ | .sMacro _ _ | .iFn _ _ => false
  | _ => true

/-- The kids are what Rust's grammar demands. -/
def kidsOk : Kind → List Node → Bool
  | .block, ks | .eBlock _, ks | .eUnsafe, ks | .eAsync, ks | .eTryBlock, ks | .eConst, ks =>
    ks.all fun n => isStatement n.kind
  | .eMatch, s :: arms => isExprNode s && arms.all fun n => match n.kind with | .arm _ => true | _ => false
  | .eMatch, [] => false
  | .arm _, ks => (ks.length == 1 || ks.length == 2) && ks.all isExprNode
  | .eIf, [c, .mk .block _ _] => isExprNode c
  | .eIf, [c, .mk .block _ _, .mk (.eBlock _) _ _] => isExprNode c
  | .eIf, [c, .mk .block _ _, .mk .eIf _ _] => isExprNode c
  | .eIf, _ => false
  | .eLoop _, [.mk .block _ _] => true
  | .eLoop _, _ => false
  | .eWhile _, [c, .mk .block _ _] | .eForLoop _ _, [c, .mk .block _ _] => isExprNode c
  | .eWhile _, _ | .eForLoop _ _, _ => false
  | .sExpr _, [e] | .eTry, [e] | .eParen, [e] | .eClosure _, [e] => isExprNode e
  | .sExpr _, _ | .eTry, _ | .eParen, _ | .eClosure _, _ => false
  | .eReturn, ks | .eBreak _, ks => ks.length ≤ 1 && ks.all isExprNode
  | .iFn _ _, [.mk .block _ _] => true
  | .iFn _ _, _ => false
  | _, ks => ks.all isExprNode

mutual
/-- The tree obeys Rust's grammar, as far as it matters here. -/
def grammatical : Node → Bool
  | .mk k _ ks => hidesCode k || (kidsOk k ks && grammaticalL ks)
def grammaticalL : List Node → Bool
  | [] => true
  | n :: ns => grammatical n && grammaticalL ns
end

/-- The label a node declares. -/
def labelOf : Kind → Option String
  | .eLoop l | .eWhile l | .eForLoop l _ | .eBlock l => l
  | _ => none

def isBreak : Kind → Bool
  | .eBreak _ => true
  | _ => false

mutual
/-- No label is declared again where it, or one of `seen`, is in scope, and the iterated expressions
of `for` loops contain no `break`. -/
def labelsOk (seen : List String) : Node → Bool
  | .mk k as ks =>
    (match labelOf k with
      | some l => !seen.contains l
      | none => true) &&
    (match k, ks with
      | .eForLoop _ _, h :: _ => (visible h).all fun l => !isBreak l.1
      | _, _ => true) &&
    (hidesCode k || labelsOkL (match k with
      | .eClosure _ | .eAsync => []
      | _ => (labelOf k).toList ++ seen) ks)
def labelsOkL (seen : List String) : List Node → Bool
  | [] => true
  | n :: ns => labelsOk seen n && labelsOkL seen ns
end

mutual
/-- No expression that is in result position anyhow is annotated `#[nested]`. -/
def once (J : Job) (r : Role) : Node → Bool
  | .mk k as ks =>
    (r == .plain || !isExpression k || !marked "nested" as) &&
    (hidesCode k || onceL J (fun i => kidRole (role J r k as ks) k as ks.length i) ks)
def onceL (J : Job) (rs : Nat → Role) : List Node → Bool
  | [] => true
  | n :: ns => once J (rs 0) n && onceL J (fun i => rs (i + 1)) ns
end

end AutoEnums.Spec
