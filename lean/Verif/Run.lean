import Verif.TraceVisit

/-!
# Successful runs

A successful expansion as a derivation: an inductive description of error-free runs without fuel.
`code_run` turns every successful expansion into a derivation; properties of successful expansions
are proved by induction on it.  Unlike a trace (`Verif.Trace`), a derivation determines the result.
-/

namespace AutoEnums

/-- No error and no panic has been recorded. -/
def Clean (cx : Cx) : Prop := cx.errs = [] ∧ cx.panics = []

/-- The kids the default traversal visits. -/
def Node.sub : Node → List Node
  | .mk k _ ks => if k.isOpaque then [] else ks

/-- The node after its visited kids have been replaced. -/
def Node.rebuild : Node → List Node → Node
  | .mk k as ks, ks' => if k.isOpaque then .mk k as ks else .mk k as ks'

/-- The scope in which the kids of an expression are visited. -/
def enter (vk : VK) (sc : Scope) (n : Node) : Scope :=
  match vk with
  | .visitor => (if n.anyAttr NAME then { sc with foreign := true } else sc).check n.kind
  | .dummy => sc

/-- The scope in which a `let` statement is visited. -/
def enterS (vk : VK) (sc : Scope) (n : Node) : Scope :=
  match vk with
  | .visitor => if n.anyAttr NAME then { sc with foreign := true } else sc
  | .dummy => sc

/-- The context after an inner attribute has been seen. -/
def seen (cx : Cx) (n : Node) : Cx := if n.anyAttr NAME then { cx with hasChild := true } else cx

/-- The treatment of `#[nested]` on an expression. -/
def nestedStep (sc : Scope) (cx : Cx) (n : Node) : Cx × Node :=
  if sc.foreign then (cx, n)
  else match n.findRemoveAttr NESTED with
    | some (a, n) => visitNested sc cx n a
    | none => (cx, n)

/-- What happens to an expression before its kids are visited. -/
def pre (vk : VK) (sc : Scope) (cx : Cx) (n : Node) : Cx × Node :=
  match vk with
  | .visitor => nestedStep sc (visitMode sc (seen cx n) n).1 (visitMode sc (seen cx n) n).2
  | .dummy => (seen cx n, n)

/-- What happens to an expression after its kids have been visited. -/
def post (vk : VK) (sc : Scope) (cx : Cx) (n : Node) : Cx × Node :=
  match vk with
  | .visitor =>
    if !sc.foreign || cx.marker != DEFAULT_MARKER then
      findRemoveAttrs sc (visitMarker sc cx n).1 (visitMarker sc cx n).2
    else (cx, n)
  | .dummy => (cx, n)

/-- What happens to an arm or `let` statement before its kids are visited. -/
def preSub (vk : VK) (sc : Scope) (cx : Cx) (n : Node) : Cx × Node :=
  match vk with
  | .visitor =>
    if sc.foreign then (cx, n)
    else match n.findRemoveAttr NESTED with
      | some (a, .mk (.arm p) as [b]) =>
        ((visitNested sc cx b a).1, .mk (.arm p) as [(visitNested sc cx b a).2])
      | some (a, .mk (.arm p) as [g, b]) =>
        ((visitNested sc cx b a).1, .mk (.arm p) as [g, (visitNested sc cx b a).2])
      | some (a, .mk (.sLocal p) as (e :: els)) =>
        ((visitNested sc cx e a).1, .mk (.sLocal p) as ((visitNested sc cx e a).2 :: els))
      | some (_, n) => (cx, n)
      | none => (cx, n)
  | .dummy => (cx, n)

/-- What happens to an arm or `let` statement after its kids have been visited. -/
def postSub (vk : VK) (sc : Scope) (cx : Cx) (n : Node) : Cx × Node :=
  match vk with
  | .visitor => findRemoveAttrs sc cx n
  | .dummy => (cx, n)

/-- The result of an expansion with the generated enum put in, when there is one. -/
def built (cx : Cx) (e : Node) : Node :=
  if cx.variants.isEmpty then e else buildExpr cx.buildEnum e

/-- The same for functions. -/
def builtFn (cx : Cx) (n : Node) : Node :=
  if cx.variants.isEmpty then n
  else match n with
    | .mk k as [.mk .block asb ss] => .mk k as [.mk .block asb (cx.buildEnum :: ss)]
    | n => n

/-- `Context::build` succeeds. -/
def Buildable (cx : Cx) : Prop :=
  Clean cx ∧ (2 ≤ cx.variants.length ∨ cx.variants = [] ∧ cx.hasChild = true)

/-- The tokens of an attribute that starts an inner expansion. -/
def childToks : Meta → Option (List Tok)
  | .path => some []
  | .list toks => some toks
  | .nameValue => none

/-- The context for the body of a closure. -/
def closureCx (cx : Cx) (b : Node) : Cx :=
  { cx with mode := if (visitFn cx b).try_ ≥ 2 then .try_ else .ret (visitFn cx b).return_ }

inductive Judg where
  /-- A visit of a node. -/
  | one (vk : VK) (sc : Scope) (cx : Cx) (n : Node) (cx' : Cx) (n' : Node)
  /-- Visits of several nodes. -/
  | many (vk : VK) (sc : Scope) (cx : Cx) (ns : List Node) (cx' : Cx) (ns' : List Node)
  /-- A visit of an expression; `semi` tells whether it is a statement ending in `;`. -/
  | expr (vk : VK) (sc : Scope) (semi : Bool) (cx : Cx) (n : Node) (cx' : Cx) (n' : Node)
  /-- A visit of an arm or of a `let` statement whose `#[auto_enum]`, if any, has been taken. -/
  | part (vk : VK) (sc : Scope) (cx : Cx) (n : Node) (cx' : Cx) (n' : Node)
  /-- The expansion of an attribute on an expression. -/
  | onExpr (semi : Bool) (cx : Cx) (n : Node) (cx' : Cx) (n' : Node)
  /-- The analysis and visit of the target of an attribute. -/
  | target (cx : Cx) (n : Node) (cx' : Cx) (n' : Node)
  /-- The same followed by the insertion of the enum. -/
  | build (cx : Cx) (n : Node) (cx' : Cx) (n' : Node)
  /-- The expansion of an attribute on a statement. -/
  | onStmt (cx : Cx) (n : Node) (cx' : Cx) (n' : Node)

open Judg

/-- The functions compute this expansion of an attribute on an expression. -/
def Ran (env : Env) (semi : Bool) (cx : Cx) (n : Node) (cx' : Cx) (n' : Node) : Prop :=
  ∃ f, expandParentExpr env (visit env f) cx n semi = (cx', n')

/-- The functions compute this expansion of an attribute on a statement. -/
def RanStmt (env : Env) (cx : Cx) (n : Node) (cx' : Cx) (n' : Node) : Prop :=
  ∃ f, expandParentStmt env (visit env f) cx n = (cx', n')

/-- Successful runs. -/
inductive Run (env : Env) : Judg → Prop where
  | nil : Run env (many vk sc cx [] cx [])
  | cons : Run env (one vk sc cx n cx1 n') → Run env (many vk sc cx1 ns cx2 ns') →
      Run env (many vk sc cx (n :: ns) cx2 (n' :: ns'))
  /-- An expression without `#[auto_enum]`. -/
  | plain : Clean cx → Clean (pre vk (enter vk sc n) cx n).1 →
      (n.anyAttr NAME = true → ∃ b, n.kind = .sExpr b) →
      (pre vk (enter vk sc n) cx n).2.findRemoveAttr NAME = none →
      Run env (many vk (enter vk sc n) (pre vk (enter vk sc n) cx n).1
        (pre vk (enter vk sc n) cx n).2.sub cx2 ks) →
      Clean cx2 → Clean (post vk (enter vk sc n) cx2
        ((pre vk (enter vk sc n) cx n).2.rebuild ks)).1 →
      Run env (expr vk sc semi cx n
        (post vk (enter vk sc n) cx2 ((pre vk (enter vk sc n) cx n).2.rebuild ks)).1
        (post vk (enter vk sc n) cx2 ((pre vk (enter vk sc n) cx n).2.rebuild ks)).2)
  /-- An expression with `#[auto_enum]`. -/
  | child : Clean cx → Clean (pre vk (enter vk sc n) cx n).1 →
      n.anyAttr NAME = true →
      (pre vk (enter vk sc n) cx n).2.findRemoveAttr NAME = some (attr, n1) →
      attr.form = .list toks →
      (pre vk (enter vk sc n) cx n).1.makeChild (env.hash n1) toks = (cx1, .ok ch) →
      Clean cx1 → Clean ch →
      Run env (many vk (enter vk sc n) cx1 n1.sub cx2 ks) → Clean cx2 →
      Run env (onExpr semi ch (n1.rebuild ks) ch' n3) → Clean ch' →
      Clean (cx2.joinChild ch') →
      Clean (post vk (enter vk sc n) (cx2.joinChild ch') n3).1 →
      Ran env semi ch (n1.rebuild ks) ch' n3 →
      Run env (expr vk sc semi cx n (post vk (enter vk sc n) (cx2.joinChild ch') n3).1
        (post vk (enter vk sc n) (cx2.joinChild ch') n3).2)
  | part : Clean cx → Clean (preSub vk sc cx n).1 →
      Run env (many vk sc (preSub vk sc cx n).1 (preSub vk sc cx n).2.sub cx2 ks) → Clean cx2 →
      Clean (postSub vk sc cx2 ((preSub vk sc cx n).2.rebuild ks)).1 →
      Run env (part vk sc cx n (postSub vk sc cx2 ((preSub vk sc cx n).2.rebuild ks)).1
        (postSub vk sc cx2 ((preSub vk sc cx n).2.rebuild ks)).2)
  | oneExpr : n.kind.isExpr = true → Run env (expr vk sc false cx n cx' n') →
      Run env (one vk sc cx n cx' n')
  | oneStmt : Run env (expr vk sc semi cx e cx' e') →
      Run env (one vk sc cx (.mk (.sExpr semi) as [e]) cx' (.mk (.sExpr semi) as [e']))
  | oneArm : n.kind = .arm p → Run env (part vk sc cx n cx' n') → Run env (one vk sc cx n cx' n')
  | oneLocal : n.kind = .sLocal p → n.anyAttr NAME = false → Run env (part vk sc cx n cx' n') →
      Run env (one vk sc cx n cx' n')
  | oneLocalChild : n.kind = .sLocal p → n.anyAttr NAME = true → Clean cx →
      n.findRemoveAttr NAME = some (attr, n1) → childToks attr.form = some toks →
      (seen cx n).makeChild (env.hash n1) toks = (cx1, .ok ch) → Clean cx1 → Clean ch →
      Run env (part vk (enterS vk sc n) cx1 n1 cx2 n2) → Clean cx2 →
      Run env (onStmt ch n2 ch' n3) → Clean ch' → Clean (cx2.joinChild ch') →
      RanStmt env ch n2 ch' n3 →
      Run env (one vk sc cx n (cx2.joinChild ch') n3)
  /-- Blocks and functions. -/
  | oneBlock : n.kind.isExpr = false → n.kind.isStmt = false → (∀ p, n.kind ≠ .arm p) →
      Run env (many vk sc cx n.sub cx' ks) → Run env (one vk sc cx n cx' (n.rebuild ks))
  /-- Items and macro statements. -/
  | oneInert : n.kind.isStmt = true → (∀ p, n.kind ≠ .sLocal p) →
      (∀ b as e, n = .mk (.sExpr b) as [e] → False) → Clean cx →
      Run env (one vk sc cx n (seen cx n) n)
  | exprDummy : (if semi then { cx with lastMode := .never } else cx).isDummy = true →
      Run env (one .dummy {} (if semi then { cx with lastMode := .never } else cx) e cx' e') →
      Run env (onExpr semi cx e cx' e')
  | exprBuild : (if semi then { cx with lastMode := .never } else cx).isDummy = false →
      Run env (build (if semi then { cx with lastMode := .never } else cx) e cx' e') →
      Run env (onExpr semi cx e cx' e')
  /-- The target is visited. -/
  | target : (childExpr cx e).1.analysisExit env = false → Clean (childExpr cx e).1 →
      Run env (one .visitor {} (childExpr cx e).1 (childExpr cx e).2 cx' e') →
      Run env (target cx e cx' e')
  /-- Too few branches were found under type analysis. -/
  | targetExit : (childExpr cx e).1.analysisExit env = true → Clean (childExpr cx e).1 →
      Run env (one .dummy {} (childExpr cx e).1 (childExpr cx e).2 cx' e') →
      Run env (target cx e cx' e')
  | buildExpr : (cx.visitLast = true → ∀ i as b, e ≠ .mk (.eClosure i) as [b]) →
      Run env (target cx e cx' e') → Buildable cx' → Run env (build cx e cx' (built cx' e'))
  | buildClosure : cx.visitLast = true →
      Run env (target (closureCx cx b) b cx' b') → Buildable cx' →
      Run env (build cx (.mk (.eClosure i) as [b]) cx' (built cx' (.mk (.eClosure i) as [b'])))
  | stmtExpr : Run env (onExpr semi cx e cx' e') →
      Run env (onStmt cx (.mk (.sExpr semi) as [e]) cx' (.mk (.sExpr semi) as [e']))
  | stmtLocalDummy : localAnalysis env cx p = (cx1, p1) → cx1.isDummy = true →
      Run env (many .dummy {} cx1 ks cx' ks') →
      Run env (onStmt cx (.mk (.sLocal p) as ks) cx' (.mk (.sLocal p1) as ks'))
  | stmtLocal : localAnalysis env cx p = (cx1, p1) → cx1.isDummy = false →
      Run env (build cx1 e cx' e') →
      Run env (onStmt cx (.mk (.sLocal p) as (e :: els)) cx' (.mk (.sLocal p1) as (e' :: els)))
  | stmtFnDummy : fnAnalysis env cx ret (.mk .block asb ss) = cx1 → cx1.isDummy = true →
      Run env (many .dummy {} cx1 [.mk .block asb ss] cx' [b']) →
      Run env (onStmt cx (.mk (.iFn name ret) as [.mk .block asb ss]) cx'
        (.mk (.iFn name ret) as [b']))
  | stmtFnExit : fnAnalysis env cx ret (.mk .block asb ss) = cx1 → cx1.isDummy = false → ss ≠ [] →
      (childLast cx1 ss).1.analysisExit env = true → Clean (childLast cx1 ss).1 →
      Run env (many .dummy {} (childLast cx1 ss).1 [.mk .block asb (childLast cx1 ss).2] cx' [b']) →
      Run env (onStmt cx (.mk (.iFn name ret) as [.mk .block asb ss]) cx'
        (.mk (.iFn name ret) as [b']))
  | stmtFn : fnAnalysis env cx ret (.mk .block asb ss) = cx1 → cx1.isDummy = false → ss ≠ [] →
      (childLast cx1 ss).1.analysisExit env = false → Clean (childLast cx1 ss).1 →
      Run env (many .visitor {} (childLast cx1 ss).1 [.mk .block asb (childLast cx1 ss).2]
        cx' [b']) → Buildable cx' →
      Run env (onStmt cx (.mk (.iFn name ret) as [.mk .block asb ss]) cx'
        (builtFn cx' (.mk (.iFn name ret) as [b'])))
  /-- Macro statements. -/
  | stmtInert : (∀ i, n.kind ≠ .sItem i) → (∀ p, n.kind ≠ .sLocal p) →
      (∀ b as e, n ≠ .mk (.sExpr b) as [e]) →
      (∀ nm r as asb ss, n ≠ .mk (.iFn nm r) as [.mk .block asb ss]) → Clean cx →
      Run env (onStmt cx n cx n)

end AutoEnums
