import Verif.ChildExpr
import Verif.TypeAnalysis

/-!
# `visitor.rs` and `mod.rs`: the expansion

The visitors re-visit trees they have already transformed and start the expansion of inner
`#[auto_enum]` attributes, so the recursion is not structural.  Every function below that needs the
recursive visit takes it as the argument `rec`; `visit` at the end ties the knot with fuel.
-/

namespace AutoEnums

/-- Parameters of a run: the hash of a token stream (`context.rs:372-376`) and whether the
`type_analysis` feature is enabled. -/
structure Env where
  hash : Node → Nat
  typeAnalysis : Bool := false

/-- Which `VisitMut` implementation is running: `Visitor` or `Dummy`. -/
inductive VK where
  | visitor
  | dummy
deriving DecidableEq, Repr

/-- `visitor.visit_*_mut(node)` for the node's syntactic class.  `Visitor::scope` is restored at the
end of every visit, so it is an argument. -/
abbrev Rec := VK → Scope → Cx → Node → Cx × Node

/-! ## `mod.rs:60-228` -/

/-- `build_expr` (`mod.rs:89-93`). -/
def buildExpr (item e : Node) : Node := exprBlock [item, tailS e]

/-- The `type_analysis` exit of `expand_expr` and `expand_parent_item_fn`
(`mod.rs:76-84, 215-223`). -/
def Cx.analysisExit (env : Env) (cx : Cx) : Bool :=
  env.typeAnalysis &&
    match cx.mode with
    | .ret count => cx.args.isEmpty && cx.variants.isEmpty && decide (count < 2)
    | _ => false

/-- `Context::dummy` (`context.rs:238-242`) on an expression. -/
def dummyExpr (rec : Rec) (cx : Cx) (e : Node) : Cx × Node :=
  rec .dummy {} (cx.assert cx.args.isEmpty .dummyArgs) e

/-- `Context::dummy` on a `let` statement or function: `visit_local_mut` and `visit_item_fn_mut`
are not overridden by `Dummy`. -/
def dummyWalk (rec : Rec) (cx : Cx) (n : Node) : Cx × Node :=
  walk (rec .dummy {}) (cx.assert cx.args.isEmpty .dummyArgs) n

/-- `child_expr` followed by the visitor (`mod.rs:74-86`). -/
def expandTarget (env : Env) (rec : Rec) (cx : Cx) (e : Node) : Cx × Node :=
  let r := childExpr cx e
  if r.1.analysisExit env then dummyExpr rec r.1 r.2 else rec .visitor {} r.1 r.2

/-- `expand_expr` (`mod.rs:60-87`). -/
def expandExpr (env : Env) (rec : Rec) (cx : Cx) (e : Node) : Cx × Node :=
  match e with
  | .mk (.eClosure i) as [body] =>
    if cx.visitLast then
      let count := visitFn cx body
      let cx := { cx with mode := if count.try_ ≥ 2 then .try_ else .ret count.return_ }
      let r := expandTarget env rec cx body
      (r.1, .mk (.eClosure i) as [r.2])
    else expandTarget env rec cx e
  | e => expandTarget env rec cx e

/-- `expand_expr` followed by `cx.build(|item| build_expr(expr, item))` (`mod.rs:120-122,
150-152`). -/
def expandBuild (env : Env) (rec : Rec) (cx : Cx) (e : Node) : Cx × Node :=
  let r := expandExpr env rec cx e
  match r.1.build with
  | (cx, some item) => (cx, buildExpr item r.2)
  | (cx, none) => (cx, r.2)

/-- `expand_parent_expr` (`mod.rs:110-123`). -/
def expandParentExpr (env : Env) (rec : Rec) (cx : Cx) (e : Node) (hasSemi : Bool) : Cx × Node :=
  let cx := if hasSemi then { cx with lastMode := .never } else cx
  if cx.isDummy then dummyExpr rec cx e else expandBuild env rec cx e

/-- The type analysis of `expand_parent_local` (`mod.rs:126-133`). -/
def localAnalysis (env : Env) (cx : Cx) (pat : LetPat) : Cx × LetPat :=
  if env.typeAnalysis then
    match pat with
    | .typed s ty =>
      let r := cx.collectImplTrait ty
      (r.1, if r.2 then .plain s else .typed s ty)
    | p => (cx, p)
  else (cx, pat)

/-- `expand_parent_local` (`mod.rs:125-153`). -/
def expandParentLocal (env : Env) (rec : Rec) (cx : Cx) (pat : LetPat) (as : List Attr)
    (ks : List Node) : Cx × Node :=
  let r := localAnalysis env cx pat
  let cx := r.1
  let pat := r.2
  if cx.isDummy then dummyWalk rec cx (.mk (.sLocal pat) as ks)
  else match ks with
    | [] => (cx.error .uninitLet, .mk (.sLocal pat) as [])
    | e :: els =>
      let r := expandBuild env rec cx e
      (r.1, .mk (.sLocal pat) as (r.2 :: els))

/-- How the return type selects the mode (`mod.rs:157-195`).  `visit_last_mode` is `Default` for a
function: it is only set by `expand_parent_expr`. -/
def retMode (cx : Cx) (ty : Ty) (block : Node) : VisitMode :=
  if cx.lastMode == .never then cx.mode
  else match ty with
    | .mk (.implTrait _) _ => .ret (visitFn cx block).return_
    | .mk (.path false p (some false)) [.mk .argType _, .mk .argType [.mk (.implTrait _) _]] =>
      if pathEq p ["std", "core"] ["result", "Result"] && decide ((visitFn cx block).try_ ≥ 2)
      then .try_ else cx.mode
    | _ => cx.mode

/-- The mode and the inferred traits (`mod.rs:157-199`). -/
def fnAnalysis (env : Env) (cx : Cx) (ret : Option Ty) (block : Node) : Cx :=
  match ret with
  | none => cx
  | some ty =>
    let cx := { cx with mode := retMode cx ty block }
    if env.typeAnalysis then (cx.collectImplTrait ty).1 else cx

/-- `expand_parent_item_fn` (`mod.rs:155-228`). -/
def expandParentFn (env : Env) (rec : Rec) (cx : Cx) (name : String) (ret : Option Ty)
    (as : List Attr) (asb : List Attr) (ss : List Node) : Cx × Node :=
  let fn (ss : List Node) : Node := .mk (.iFn name ret) as [.mk .block asb ss]
  let cx := fnAnalysis env cx ret (.mk .block asb ss)
  if cx.isDummy then dummyWalk rec cx (fn ss)
  else
    let r := if ss.isEmpty then (cx.error .emptyFn, ss) else childLast cx ss
    if r.1.analysisExit env then dummyWalk rec r.1 (fn r.2)
    else
      let w := walk (rec .visitor {}) r.1 (fn r.2)
      match w.1.build, w.2 with
      | (cx, some item), .mk k as [.mk .block asb ss] => (cx, .mk k as [.mk .block asb (item :: ss)])
      | (cx, _), n => (cx, n)

/-- `expand_parent_stmt` (`mod.rs:98-108`). -/
def expandParentStmt (env : Env) (rec : Rec) (cx : Cx) : Node → Cx × Node
  | .mk (.sExpr semi) as [e] =>
    let r := expandParentExpr env rec cx e semi
    (r.1, .mk (.sExpr semi) as [r.2])
  | .mk (.sLocal pat) as ks => expandParentLocal env rec cx pat as ks
  | .mk (.iFn name ret) as [.mk .block asb ss] => expandParentFn env rec cx name ret as asb ss
  | .mk (.sItem i) as ks => (cx.error .badTarget, .mk (.sItem i) as ks)
  | n => (cx, n)

/-! ## `VisitStmt` (`visitor.rs:321-377`) -/

/-- `VisitStmt::visit_expr` (`visitor.rs:324-343`). -/
def vsVisitExpr (env : Env) (rec : Rec) (vk : VK) (sc : Scope) (cx : Cx) (n : Node)
    (hasSemi : Bool) : Cx × Node :=
  match n.findRemoveAttr NAME with
  | none => walk (rec vk sc) cx n
  | some (attr, n) =>
    match attr.form with
    | .list toks =>
      let m := cx.makeChild (env.hash n) toks
      let w := walk (rec vk sc) m.1 n
      match m.2 with
      | .error e => (w.1.error e, w.2)
      | .ok child =>
        let r := expandParentExpr env rec child w.2 hasSemi
        (w.1.joinChild r.1, r.2)
    | _ =>
      let w := walk (rec vk sc) cx n
      (w.1.error .requireList, w.2)

/-- `Visitor::find_remove_attrs` (`visitor.rs:49-66`). -/
def findRemoveAttrs (sc : Scope) (cx : Cx) (n : Node) : Cx × Node :=
  if sc.foreign then (cx, n)
  else
    let r : Cx × Node := match n.findRemoveAttr NEVER with
      | some (a, n) => (if a.form == .path then cx else cx.error .neverNotPath, n)
      | none => (cx, n)
    match r.2.findRemoveAttr "rec" with
    | some (_, n) => (r.1.error .recRemoved, n)
    | none => r

/-- `Visitor::visit_nested` (`visitor.rs:132-140`). -/
def visitNested (sc : Scope) (cx : Cx) (n : Node) (a : Attr) : Cx × Node :=
  let cx := cx.assert (!sc.foreign) .nestedForeign
  if a.form == .path then childExpr cx n else (cx.error .nestedNotPath, n)

/-- `visit_local_mut`: `Visitor`'s (`visitor.rs:228-242`), or the default for `Dummy`. -/
def visitLocal (rec : Rec) (vk : VK) (sc : Scope) (cx : Cx) (n : Node) : Cx × Node :=
  match vk with
  | .dummy => walk (rec .dummy sc) cx n
  | .visitor =>
    if cx.hasError then (cx, n)
    else
      let r := if sc.foreign then (cx, n) else
        match n.findRemoveAttr NESTED with
        | some (a, .mk (.sLocal p) as (e :: els)) =>
          let r := visitNested sc cx e a
          (r.1, .mk (.sLocal p) as (r.2 :: els))
        | some (_, n) => (cx, n)
        | none => (cx, n)
      let w := walk (rec .visitor sc) r.1 r.2
      findRemoveAttrs sc w.1 w.2

/-- `VisitStmt::visit_stmt` (`visitor.rs:345-376`). -/
def vsVisitStmt (env : Env) (rec : Rec) (vk : VK) (sc : Scope) (cx : Cx) (n : Node) : Cx × Node :=
  match n with
  | .mk (.sExpr semi) as [e] =>
    let r := vsVisitExpr env rec vk sc cx e semi
    (r.1, .mk (.sExpr semi) as [r.2])
  | .mk (.sLocal _) _ _ =>
    match n.findRemoveAttr NAME with
    | none => visitLocal rec vk sc cx n
    | some (attr, n) =>
      match (match attr.form with
        | .path => some []
        | .list toks => some toks
        | .nameValue => none) with
      | some toks =>
        let m := cx.makeChild (env.hash n) toks
        let w := visitLocal rec vk sc m.1 n
        match m.2 with
        | .error e => (w.1.error e, w.2)
        | .ok child =>
          let r := expandParentStmt env rec child w.2
          (w.1.joinChild r.1, r.2)
      | none =>
        let w := visitLocal rec vk sc cx n
        (w.1.error .expectedList, w.2)
  -- `Stmt::Macro`: the default traversal sees no expression; `Stmt::Item`: not visited.
  | n => (cx, n)

/-! ## `Visitor` (`visitor.rs:39-267`) -/

/-- `Visitor::visit_return` (`visitor.rs:69-81`). -/
def visitReturn (sc : Scope) (cx : Cx) (n : Node) : Cx × Node :=
  if !sc.closure && !n.anyEmptyAttr NEVER then
    match n with
    | .mk .eReturn as ks =>
      let r := cx.replaceBoxed ks
      (r.1, .mk .eReturn as r.2)
    | n => (cx, n)
  else (cx, n)

/-- The arms of the desugared `?` (`visitor.rs:106-115`). -/
def tryArms (err : Node) : List Node :=
  [.mk (.arm "::core::result::Result::Ok(val)") [] [pathE (.ofIdents ["val"])],
   .mk (.arm "::core::result::Result::Err(err)") [] [exprBlock [semiS (.mk .eReturn []
     [.mk .eCall [] [pathE ⟨true, [⟨"core", none⟩, ⟨"result", none⟩, ⟨"Result", none⟩,
       ⟨"Err", none⟩]⟩, err]])]]]

/-- `Visitor::visit_try` (`visitor.rs:84-129`). -/
def visitTry (sc : Scope) (cx : Cx) (n : Node) : Cx × Node :=
  if !sc.tryBlock && !sc.closure && !n.anyEmptyAttr NEVER then
    match n with
    | .mk .eTry as [e] =>
      if cx.isMarkerExpr e then (cx, n)
      else
        let r := cx.nextExpr (pathE (.ofIdents ["err"]))
        (r.1, .mk .eMatch as (e :: tryArms r.2))
    | n => (cx, n)
  else (cx, n)

/-- `compile_error!("#[auto_enum] failed to generate error message")` (`visitor.rs:156-158`). -/
def failedMarker : Node := .mk (.eMacro (.ofIdents ["compile_error"])
  "#[auto_enum] failed to generate error message") [] []

/-- `Visitor::visit_marker_macro` (`visitor.rs:143-170`). -/
def visitMarker (sc : Scope) (cx : Cx) (n : Node) : Cx × Node :=
  let cx := cx.assert (!sc.foreign || cx.marker != DEFAULT_MARKER) .markerForeign
  match n with
  | .mk (.eMacro p t) as ks =>
    if cx.isMarkerExact p then
      match ks with
      | [e] => if cx.hasError then (cx, e) else cx.nextExprAttrs as e
      | _ => (cx.error .markerParse, failedMarker)
    else (cx, .mk (.eMacro p t) as ks)
  | n => (cx, n)

/-- `match self.cx.visit_mode` (`visitor.rs:184-188`). -/
def visitMode (sc : Scope) (cx : Cx) (n : Node) : Cx × Node :=
  match cx.mode with
  | .ret _ => visitReturn sc cx n
  | .try_ => visitTry sc cx n
  | .default => (cx, n)

/-- `Visitor::visit_expr` (`visitor.rs:172-204`). -/
def visitExpr (env : Env) (rec : Rec) (sc : Scope) (cx : Cx) (n : Node) (hasSemi : Bool) :
    Cx × Node :=
  let cx := cx.assert (!cx.hasError) .visitAfterError
  let isName := n.anyAttr NAME
  let sc := if isName then { sc with foreign := true } else sc
  let cx := if isName then { cx with hasChild := true } else cx
  let sc := sc.check n.kind
  let r := visitMode sc cx n
  let r := if sc.foreign then r else
    match r.2.findRemoveAttr NESTED with
    | some (a, n) => visitNested sc r.1 n a
    | none => r
  let r := vsVisitExpr env rec .visitor sc r.1 r.2 hasSemi
  if !sc.foreign || r.1.marker != DEFAULT_MARKER then
    let r := visitMarker sc r.1 r.2
    findRemoveAttrs sc r.1 r.2
  else r

/-- `visit_arm_mut` of `Visitor` (`visitor.rs:214-226`). -/
def visitArm (rec : Rec) (sc : Scope) (cx : Cx) (n : Node) : Cx × Node :=
  if cx.hasError then (cx, n)
  else
    let r := if sc.foreign then (cx, n) else
      match n.findRemoveAttr NESTED with
      | some (a, .mk (.arm p) as [b]) =>
        let r := visitNested sc cx b a; (r.1, .mk (.arm p) as [r.2])
      | some (a, .mk (.arm p) as [g, b]) =>
        let r := visitNested sc cx b a; (r.1, .mk (.arm p) as [g, r.2])
      | some (_, n) => (cx, n)
      | none => (cx, n)
    let w := walk (rec .visitor sc) r.1 r.2
    findRemoveAttrs sc w.1 w.2

/-- `visit_stmt_mut` of `Visitor` (`visitor.rs:244-262`). -/
def visitStmt (env : Env) (rec : Rec) (sc : Scope) (cx : Cx) (n : Node) : Cx × Node :=
  if cx.hasError then (cx, n)
  else match n with
    | .mk (.sExpr semi) as [e] =>
      let r := visitExpr env rec sc cx e semi
      (r.1, .mk (.sExpr semi) as [r.2])
    | n =>
      let isName := n.anyAttr NAME
      let sc := if isName then { sc with foreign := true } else sc
      let cx := if isName then { cx with hasChild := true } else cx
      vsVisitStmt env rec .visitor sc cx n

/-- `VisitMut for Visitor` (`visitor.rs:207-267`), by syntactic class. -/
def visitorStep (env : Env) (rec : Rec) (sc : Scope) (cx : Cx) (n : Node) : Cx × Node :=
  if n.kind.isExpr then
    if cx.hasError then (cx, n) else visitExpr env rec sc cx n false
  else if n.kind.isStmt then visitStmt env rec sc cx n
  else match n.kind with
    | .arm _ => visitArm rec sc cx n
    | _ => walk (rec .visitor sc) cx n

/-- `VisitMut for Dummy` (`visitor.rs:288-310`), by syntactic class. -/
def dummyStep (env : Env) (rec : Rec) (sc : Scope) (cx : Cx) (n : Node) : Cx × Node :=
  if n.kind.isExpr then
    if cx.hasError then (cx, n)
    else
      let cx := if n.anyAttr NAME then { cx with hasChild := true } else cx
      vsVisitExpr env rec .dummy sc cx n false
  else if n.kind.isStmt then
    if cx.hasError then (cx, n)
    else
      let cx := if n.anyAttr NAME then { cx with hasChild := true } else cx
      vsVisitStmt env rec .dummy sc cx n
  else walk (rec .dummy sc) cx n

/-- The two visitors, with recursion bounded by fuel. -/
def visit (env : Env) : Nat → Rec
  | 0 => fun _ _ cx n => (cx.panic .fuel, n)
  | f + 1 => fun vk sc cx n =>
    match vk with
    | .visitor => visitorStep env (visit env f) sc cx n
    | .dummy => dummyStep env (visit env f) sc cx n

/-! ## `attribute` (`mod.rs:31-58`) -/

/-- The annotated input: a statement or function that `syn::parse2::<Stmt>` accepts, else an
expression, else tokens that parse as neither. -/
inductive Input where
  | stmt (n : Node)
  | expr (n : Node)
  | invalid
deriving DecidableEq, Repr

/-- The result of the macro. -/
inductive Output where
  /-- The expansion. -/
  | code (n : Node)
  /-- `compile_error!`s. -/
  | errors (es : List Err)
  /-- The macro panicked. -/
  | panicked (ps : List Panic)
deriving DecidableEq, Repr

/-- `cx.check().map(|()| node)` (`context.rs:158-163`, `mod.rs:40, 53`). -/
def finish (r : Cx × Node) : Output :=
  if r.1.panics.isEmpty then
    if r.1.errs.isEmpty then .code r.2 else .errors r.1.errs
  else .panicked r.1.panics

/-- The expansion of a statement or expression by a context (`mod.rs:38-39, 51-52`). -/
def expandInput (env : Env) (fuel : Nat) (cx : Cx) : Input → Option (Cx × Node)
  | .stmt n => some (expandParentStmt env (visit env fuel) cx n)
  | .expr n => some (expandParentExpr env (visit env fuel) cx n false)
  | .invalid => none

/-- `attribute` (`mod.rs:31-58`) with the given fuel; `h` is the hash of the input. -/
def autoEnum (env : Env) (fuel : Nat) (h : Nat) (toks : List Tok) (input : Input) : Output :=
  match Cx.new h toks true [] [] with
  | .error e => .errors [e]
  | .ok cx =>
    match expandInput env fuel cx input with
    | some r => finish r
    | none => .errors [.inputParse, .badTarget]

end AutoEnums
