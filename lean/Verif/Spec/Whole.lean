import Verif.Spec.Treat
import Verif.Spec.Enum

/-!
# Specification vocabulary: the expansion of a whole input

What becomes of an annotated statement, function or expression without inner attributes.  Nothing
in this file refers to the model of the code.
-/

namespace AutoEnums.Spec

/-! ## What is asked for -/

/-- The job of an attributed expression; one followed by `;` has no value, so only its markers
count. -/
def exprJob (en : Ident) (m : String) (semi : Bool) : Job := ⟨en, m, !semi, false, false⟩

/-- The job of an attributed closure with the given body: to desugar `?` if there are two or more,
otherwise to wrap the value and the `return`s. -/
def closureJob (en : Ident) (m : String) (b : Node) : Job :=
  if 2 ≤ ourCount .try_ m (exits false {} b) then ⟨en, m, false, false, true⟩
  else ⟨en, m, true, true, false⟩

/-- The job of an attributed function with the given return type and body. -/
def fnJob (en : Ident) (m : String) (ret : Option Ty) (b : Node) : Job :=
  match ret with
  | some (.mk (.implTrait _) _) => ⟨en, m, true, true, false⟩
  | some (.mk (.path false p (some false)) [.mk .argType _, .mk .argType [.mk (.implTrait _) _]]) =>
    if IsResult p ∧ 2 ≤ ourCount .try_ m (exits false {} b) then ⟨en, m, false, false, true⟩
    else ⟨en, m, true, false, false⟩
  | _ => ⟨en, m, true, false, false⟩

/-- The role in which the job starts. -/
def Job.start (J : Job) : Role := if J.branches then .result else .plain

/-! ## What becomes of the input -/

/-- What becomes of an attributed expression. -/
def treatExpr (en : Ident) (m : String) (semi : Bool) (e : Node) : Node :=
  match semi, e with
  | false, .mk (.eClosure i) as [b] =>
    .mk (.eClosure i) as [treat (closureJob en m b) {} [] (closureJob en m b).start b]
  | semi, e => treat (exprJob en m semi) {} [] (exprJob en m semi).start e

/-- The roles of the statements of a function body. -/
def bodyRole (J : Job) (n : Nat) (i : Nat) : Role := if i + 1 = n then J.start else .plain

/-- What becomes of the statements of a function body. -/
def treatBody (J : Job) (ss : List Node) : List Node :=
  treatL J {} (fun _ => []) (bodyRole J ss.length) ss

/-- What becomes of an attributed statement, function or expression. -/
def treatInput (en : Ident) (m : String) : Node → Node
  | .mk (.sExpr semi) as [e] => .mk (.sExpr semi) as [treatExpr en m semi e]
  | .mk (.sLocal p) as (e :: els) => .mk (.sLocal p) as (treatExpr en m false e :: els)
  | .mk (.iFn name ret) as [.mk .block asb ss] =>
    .mk (.iFn name ret) as [.mk .block asb (treatBody (fnJob en m ret (.mk .block asb ss)) ss)]
  | e => treatExpr en m false e

/-- The type annotation of a `let` is dropped if it gave rise to traits. -/
def retype (analysis : Bool) (traits : List Path) : Node → Node
  | .mk (.sLocal (.typed s ty)) as ks =>
    if analysis = true ∧ inferred traits ty ≠ [] then .mk (.sLocal (.plain s)) as ks
    else .mk (.sLocal (.typed s ty)) as ks
  | n => n

/-- The traits inferred for an input. -/
def inferredFor (analysis : Bool) (traits : List Path) : Node → List Path
  | .mk k as _ => if analysis then ((annotationOf (k, as)).map (inferred traits)).getD [] else []

/-- The block `{ g e }`. -/
def inBlock (g e : Node) : Node :=
  .mk (.eBlock none) [] [g, .mk (.sExpr false) [] [e]]

/-- Where the declaration `g` of the enum goes: in front of the expression, or to the beginning of
the body of the function. -/
def placeEnum (g : Node) : Node → Node
  | .mk (.sExpr semi) as [e] => .mk (.sExpr semi) as [inBlock g e]
  | .mk (.sLocal p) as (e :: els) => .mk (.sLocal p) as (inBlock g e :: els)
  | .mk (.iFn name ret) as [.mk .block asb ss] => .mk (.iFn name ret) as [.mk .block asb (g :: ss)]
  | e => inBlock g e

/-- The declaration of the enum `en` with `k` variants. -/
def enumDecl (en : Ident) (k : Nat) (derives : List Path) : Node :=
  .mk (.sItem (.genEnum en (variantNames k) ((variantNames k).map fun v => (v, v)) derives)) [] []

/-! ## Ordinary inputs -/

/-- The code has no inner attribute, is grammatical, does not shadow labels, has no `break` in the
head of a `for`, and no `#[nested]` on expressions in result position. -/
def ordinaryIn (J : Job) (r : Role) (e : Node) : Bool :=
  isExprNode e && !hasAttr "auto_enum" e && grammatical e && labelsOk [] e && once J r e

def ordinaryExpr (en : Ident) (m : String) (semi : Bool) (e : Node) : Bool :=
  match semi, e with
  | false, .mk (.eClosure _) _ [b] =>
    shaped b && ordinaryIn (closureJob en m b) (closureJob en m b).start b
  | semi, e => ordinaryIn (exprJob en m semi) (exprJob en m semi).start e

def ordinaryBody (J : Job) (ss : List Node) : Bool :=
  !ss.isEmpty && (ss.all fun n => isStatement n.kind) && !hasAttrL "auto_enum" ss &&
    grammaticalL ss && labelsOkL [] ss && onceL J (bodyRole J ss.length) ss

/-- An ordinary statement, function or expression that can be the target of the attribute. -/
def ordinary (en : Ident) (m : String) : Node → Bool
  | .mk (.sExpr semi) _ [e] => ordinaryExpr en m semi e
  | .mk (.sLocal _) _ (e :: _) => ordinaryExpr en m false e
  | .mk (.iFn _ ret) _ [.mk .block asb ss] =>
    shapedL ss && ordinaryBody (fnJob en m ret (.mk .block asb ss)) ss
  | e => isExprNode e && ordinaryExpr en m false e

/-! ## Counting constructors -/

/-- The node is a path `en::v`. -/
def isCtor (en : Ident) : Label → Nat
  | (.ePath false ⟨false, [⟨e, none⟩, ⟨_, none⟩]⟩, _) => if e = en then 1 else 0
  | _ => 0

/-- How many constructors of `en` are used. -/
def ctors (en : Ident) (n : Node) : Nat := weigh (isCtor en) n

/-- `en` does not occur: neither as the name of a generated enum nor in a path `en::v`. -/
def mentions (en : Ident) (n : Node) : Bool :=
  (labels n).any fun l => isCtor en l ≠ 0 || (enumOf l).any fun g => g.name = en

end AutoEnums.Spec
