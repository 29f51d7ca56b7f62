import Verif.Context

/-!
# `expr.rs` and the read-only traversals of `visitor.rs`
-/

namespace AutoEnums

/-! ## `find_nested` (`visitor.rs:383-425`) -/

mutual
/-- `FindNested` (`visitor.rs:388-420`). -/
def findNested : Node → Bool
  | .mk k as ks =>
    if k.isOpaque then
      -- Macro tokens are not visited, items are skipped; a macro expression's own attributes are
      -- inspected by `visit_expr_mut`.
      k.isExpr && k.hasAttrs && !anyAttr as NAME && anyEmptyAttr as NESTED
    else match k with
      | .block | .sExpr _ | .iFn _ _ => findNestedL ks
      | .arm _ => anyEmptyAttr as NESTED || findNestedL ks
      -- `visit_expr_mut` and `visit_local_mut`
      | _ => !anyAttr as NAME && (anyEmptyAttr as NESTED || findNestedL ks)
def findNestedL : List Node → Bool
  | [] => false
  | n :: ns => findNested n || findNestedL ns
end

/-! ## `is_unreachable` (`expr.rs:40-98`) -/

/-- `is_unreachable_macro` (`expr.rs:80-86`). -/
def isUnreachableMacro (cx : Cx) (p : Path) : Bool :=
  ["unreachable", "panic"].any (fun i => pathEq p ["std", "core"] [i]) || cx.isMarker p

/-- `Err(expr)?` or `None?` (`expr.rs:59-70`), on the operand of `?`. -/
def isNoneOrErr : Node → Bool
  | .mk (.ePath false p) _ _ => pathEq p ["std", "core"] ["option", "Option", "None"]
  | .mk .eCall _ [.mk (.ePath false p) _ _, _] =>
    pathEq p ["std", "core"] ["result", "Result", "Err"]
  | _ => false

mutual
/-- `is_unreachable` (`expr.rs:40-78`). -/
def isUnreachable (cx : Cx) : Node → Bool
  | .mk k as ks =>
    (k.hasAttrs && (anyEmptyAttr as NEVER || anyAttr as NAME)) ||
    match k, ks with
    | .eBlock _, ks => isUnreachableLast cx ks
    | .eUnsafe, ks => isUnreachableLast cx ks
    | .eBreak _, _ => true
    | .eContinue _, _ => true
    | .eReturn, _ => true
    | .eMacro p _, _ => isUnreachableMacro cx p
    | .eMatch, _ :: arms => isUnreachableArms cx arms
    | .eTry, [e] => isNoneOrErr e
    | .eMethodCall _, r :: _ => isUnreachable cx r
    | .eParen, [e] => isUnreachable cx e
    | _, _ => false
/-- `is_unreachable_stmt(cx, stmts.last())` (`expr.rs:88-98`). -/
def isUnreachableLast (cx : Cx) : List Node → Bool
  | [] => false
  | [.mk (.sExpr _) _ [e]] => isUnreachable cx e
  | [.mk (.sLocal _) _ (e :: _)] => isUnreachable cx e
  | [.mk (.sItem _) _ _] => true
  | [.mk (.sMacro p _) _ _] => isUnreachableMacro cx p
  | [_] => false
  | _ :: s :: ss => isUnreachableLast cx (s :: ss)
/-- `arms.iter().all(..)` (`expr.rs:54-56`). -/
def isUnreachableArms (cx : Cx) : List Node → Bool
  | [] => true
  | .mk (.arm _) as [b] :: ns =>
    (anyEmptyAttr as NEVER || isUnreachable cx b) && isUnreachableArms cx ns
  | .mk (.arm _) as [_, b] :: ns =>
    (anyEmptyAttr as NEVER || isUnreachable cx b) && isUnreachableArms cx ns
  | _ :: _ => false
end

/-! ## `visit_last_expr_match` (`expr.rs:100-114`) -/

/-- The body of an arm. -/
def armBody : List Node → Option Node
  | [b] => some b
  | [_, b] => some b
  | _ => none

/-- `skip` (`expr.rs:101-106`). -/
def skipArm (cx : Cx) : Node → Bool
  | .mk k as ks =>
    match armBody ks with
    | some b =>
      anyEmptyAttr as NEVER || anyEmptyAttr as NESTED || isUnreachable cx b ||
        findNested (.mk k as ks)
    | none => true

/-- The loop body of `visit_last_expr_match` (`expr.rs:108-113`).  (`arm.comma` is punctuation.) -/
def wrapArm (cx : Cx) (n : Node) : Cx × Node :=
  if skipArm cx n then (cx, n)
  else match n with
    | .mk (.arm p) as [b] => let r := cx.nextExpr b; (r.1, .mk (.arm p) as [r.2])
    | .mk (.arm p) as [g, b] => let r := cx.nextExpr b; (r.1, .mk (.arm p) as [g, r.2])
    | n => (cx, n)

/-! ## `visit_last_expr_if` (`expr.rs:116-146`) -/

/-- `skip` (`expr.rs:117-126`). -/
def skipBlock (cx : Cx) (stmts : List Node) : Bool :=
  match stmts.getLast? with
  | some (.mk (.sExpr false) _ [e]) =>
    e.anyEmptyAttr NESTED || isUnreachable cx e || findNestedL stmts
  | _ => isUnreachableLast cx stmts

/-- `if !skip(..) { replace_block(.., |b| cx.next_expr(expr_block(b))) }` (`expr.rs:128-130`,
`134-136`, `utils.rs:44-50`), on the statements of the block. -/
def wrapBlock (cx : Cx) (stmts : List Node) : Cx × List Node :=
  if skipBlock cx stmts then (cx, stmts)
  else
    let r := cx.nextExpr (exprBlock stmts)
    (r.1, [tailS r.2])

/-- `visit_last_expr_if` (`expr.rs:116-146`). -/
def visitIf (cx : Cx) : Node → Cx × Node
  | .mk .eIf as [c, .mk .block asb ss] =>
    let r := wrapBlock cx ss
    (r.1.error .missingElse, .mk .eIf as [c, .mk .block asb r.2])
  | .mk .eIf as [c, .mk .block asb ss, e] =>
    let r := wrapBlock cx ss
    match e.kind with
    | .eBlock l =>
      let r2 := wrapBlock r.1 e.kids
      (r2.1, .mk .eIf as [c, .mk .block asb r.2, .mk (.eBlock l) e.rawAttrs r2.2])
    | .eIf =>
      let r2 := visitIf r.1 e
      (r2.1, .mk .eIf as [c, .mk .block asb r.2, r2.2])
    | _ => (r.1.panic .wrongIf, .mk .eIf as [c, .mk .block asb r.2, e])
  | n => (cx, n)
termination_by structural n => n

/-! ## `visit_last_expr_loop` (`expr.rs:148-201`) -/

/-- The condition of `expr.rs:184` with `compare_labels` (`expr.rs:156-162`): `self` is the label of
the loop, `other` the label of the `break`. -/
def breakMatches (self : Option String) (nested : Bool) (other : Option String) : Bool :=
  (!nested && other.isNone) ||
    match self, other with
    | none, none => true
    | some a, some b => a == b
    | _, _ => false

mutual
/-- `LoopVisitor` (`expr.rs:165-198`).  `nested` is restored after every expression, so it is a
parameter.  After `replace_boxed_expr` the code visits the new value `Enum::VariantN(<expr>)`; the
call and its path have no attributes and are neither loops nor breaks, so visiting them is visiting
`<expr>`. -/
def loopVisit (label : Option String) (nested : Bool) (cx : Cx) : Node → Cx × Node
  | .mk k as ks =>
    if k.isOpaque || (k.isExpr && anyEmptyAttr as NEVER) then (cx, .mk k as ks)
    else match k with
      | .eClosure _ | .eAsync => (cx, .mk k as ks)
      | .eLoop _ | .eForLoop _ _ | .eWhile _ =>
        if label.isNone then (cx, .mk k as ks)
        else
          let r := loopVisitL label true cx ks
          (r.1, .mk k as r.2)
      | .eBreak l =>
        if breakMatches label nested l then
          match ks with
          | [] => let r := cx.replaceBoxed []; (r.1, .mk k as r.2)
          | e :: rest =>
            if cx.isMarkerExpr e then (cx, .mk k as (e :: rest))
            else
              let v := variantIdent cx.variants.length
              let p := Path.ofIdents [cx.ident, v]
              let r := loopVisit label nested { cx with variants := cx.variants ++ [v] } e
              (r.1, .mk k as (exprCall [] p r.2 :: rest))
        else
          let r := loopVisitL label nested cx ks
          (r.1, .mk k as r.2)
      | _ =>
        let r := loopVisitL label nested cx ks
        (r.1, .mk k as r.2)
def loopVisitL (label : Option String) (nested : Bool) (cx : Cx) : List Node → Cx × List Node
  | [] => (cx, [])
  | n :: ns =>
    let r := loopVisit label nested cx n
    let rs := loopVisitL label nested r.1 ns
    (rs.1, r.2 :: rs.2)
end

/-! ## `child_expr` (`expr.rs:13-38`) -/

mutual
/-- `child_expr` (`expr.rs:16-38`). -/
def childExpr (cx : Cx) : Node → Cx × Node
  | .mk k as ks =>
    if !cx.visitLast || isUnreachable cx (.mk k as ks) then (cx, .mk k as ks)
    else match k, ks with
      | .eBlock l, ks => let r := childLast cx ks; (r.1, .mk (.eBlock l) as r.2)
      | .eUnsafe, ks => let r := childLast cx ks; (r.1, .mk .eUnsafe as r.2)
      | .eMatch, s :: arms => let r := mapA wrapArm cx arms; (r.1, .mk .eMatch as (s :: r.2))
      | .eIf, ks => visitIf cx (.mk .eIf as ks)
      | .eLoop l, ks => let r := loopVisitL l false cx ks; (r.1, .mk (.eLoop l) as r.2)
      | .eMethodCall m, e :: args =>
        let r := childExpr cx e; (r.1, .mk (.eMethodCall m) as (r.2 :: args))
      | .eParen, [e] => let r := childExpr cx e; (r.1, .mk .eParen as [r.2])
      | k, ks => (cx, .mk k as ks)
/-- `if let Some(Stmt::Expr(expr, None)) = stmts.last_mut() { child_expr(cx, expr) }`
(`expr.rs:23-25`, `mod.rs:207`). -/
def childLast (cx : Cx) : List Node → Cx × List Node
  | [] => (cx, [])
  | [.mk (.sExpr false) as [e]] =>
    let r := childExpr cx e; (r.1, [.mk (.sExpr false) as [r.2]])
  | [s] => (cx, [s])
  | s :: t :: ss => let r := childLast cx (t :: ss); (r.1, s :: r.2)
end

/-! ## `visit_fn` (`visitor.rs:430-496`) -/

/-- `Scope` (`visitor.rs:14-22`). -/
structure Scope where
  closure : Bool := false
  tryBlock : Bool := false
  foreign : Bool := false
deriving DecidableEq, Repr

/-- `Scope::check_expr` (`visitor.rs:26-33`). -/
def Scope.check (sc : Scope) : Kind → Scope
  | .eClosure _ => { sc with closure := true }
  | .eTryBlock => { sc with tryBlock := true }
  | _ => sc

/-- `FnCount` (`visitor.rs:430-434`). -/
structure FnCount where
  try_ : Nat := 0
  return_ : Nat := 0
deriving DecidableEq, Repr

def FnCount.add (a b : FnCount) : FnCount := ⟨a.try_ + b.try_, a.return_ + b.return_⟩

/-- The contribution of one expression node (`visitor.rs:449-465`); `closure` is the scope flag
after `check_expr`. -/
def fnCountHere (cx : Cx) (closure : Bool) (as : List Attr) : Kind → List Node → FnCount
  | .eTry, e :: _ =>
    if !closure && !anyEmptyAttr as NEVER && !cx.isMarkerExpr e then ⟨1, 0⟩ else ⟨0, 0⟩
  | .eReturn, [] => if !closure && !anyEmptyAttr as NEVER then ⟨0, 1⟩ else ⟨0, 0⟩
  | .eReturn, e :: _ =>
    if !closure && !anyEmptyAttr as NEVER && !cx.isMarkerExpr e then ⟨0, 1⟩ else ⟨0, 0⟩
  | _, _ => ⟨0, 0⟩

mutual
/-- `FnVisitor` (`visitor.rs:443-491`).  Of the scope only `closure` influences the count. -/
def fnCount (cx : Cx) (closure : Bool) : Node → FnCount
  | .mk k as ks =>
    let closure' := (Scope.check { closure := closure } k).closure
    (fnCountHere cx closure' as k ks).add
      (if k.isOpaque then {} else fnCountL cx closure' ks)
def fnCountL (cx : Cx) (closure : Bool) : List Node → FnCount
  | [] => {}
  | n :: ns => (fnCount cx closure n).add (fnCountL cx closure ns)
end

/-- `visit_fn` (`visitor.rs:436-496`). -/
def visitFn (cx : Cx) (n : Node) : FnCount := fnCount cx false n

end AutoEnums
