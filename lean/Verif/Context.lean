import Verif.Args

/-!
# `context.rs`: the expansion context
-/

namespace AutoEnums

/-- `VisitMode` (`context.rs:25-29`). -/
inductive VisitMode where
  | default
  | ret (count : Nat)
  | try_
deriving DecidableEq, Repr

/-- Places where the code would panic.  A panic is recorded in the context's log instead of
stopping the run. -/
inductive Panic where
  /-- `expr.rs:144`, `unreachable!("wrong_if")`. -/
  | wrongIf
  /-- `context.rs:130`, `debug_assert!(self.has_child)`. -/
  | makeChildNoChild
  /-- `context.rs:142`, `debug_assert!(self.markers.is_empty())`. -/
  | joinMarkers
  /-- `context.rs:239`, `debug_assert!(self.args.is_empty())`. -/
  | dummyArgs
  /-- `visitor.rs:173`, `debug_assert!(!self.cx.has_error())`. -/
  | visitAfterError
  /-- `visitor.rs:133`, `debug_assert!(!self.scope.foreign)`. -/
  | nestedForeign
  /-- `visitor.rs:144`. -/
  | markerForeign
  /-- The model ran out of fuel (does not exist in the code; see C19). -/
  | fuel
deriving DecidableEq, Repr

/-- `Context` (`context.rs:49-78`).  `ident`/`variants` are the fields of `builder`
(`context.rs:333-336`).  `errs` models `error: Option<Option<Error>>` in the states `Some(None)`
(`[]`) and `Some(Some(e))` (the combined messages of `e`); the state `None` exists only after the
context has been consumed.  `span` is only used for error positions and is dropped. -/
structure Cx where
  ident : Ident
  variants : List Ident
  marker : String
  markers : List String
  root : Bool
  hasChild : Bool
  mode : VisitMode
  lastMode : VisitLastMode
  errs : List Err
  args : List Path
  traits : List Path
  panics : List Panic
  /-- Not in the code: all errors ever recorded, in this context and in the contexts of inner
  attributes, however the field `error` was moved around (C17). -/
  log : List Err
deriving Repr

/-- `format_ident!("__Enum{}", hash(input))` (`context.rs:340`). -/
def enumIdent (h : Nat) : Ident := "__Enum" ++ toString h

/-- `format_ident!("__Variant{}", n)` (`context.rs:344`). -/
def variantIdent (n : Nat) : Ident := "__Variant" ++ toString n

namespace Cx

/-- Record a panic. -/
def panic (cx : Cx) (p : Panic) : Cx := { cx with panics := cx.panics ++ [p] }

/-- `debug_assert!(b)`. -/
def assert (cx : Cx) (b : Bool) (p : Panic) : Cx := if b then cx else cx.panic p

/-- `Context::new` (`context.rs:81-121`); `h` is the hash of the span. -/
def new (h : Nat) (toks : List Tok) (root : Bool) (markers : List String) (diag : List Err) :
    Except Err Cx :=
  match parseArgs toks with
  | .error e => .error e
  | .ok a =>
    let build (m : String) : Cx :=
      { ident := enumIdent h, variants := [], marker := m, markers := markers ++ [m], root,
        hasChild := false, mode := .default, lastMode := .default, errs := diag, args := a.args,
        traits := [], panics := [], log := [] }
    match a.marker with
    | some m => if markers.contains m then .error (.dupMarkerName m) else .ok (build m)
    | none => .ok (build DEFAULT_MARKER)

/-- `Context::make_child` (`context.rs:129-138`): the parent's markers and error are moved out
before `new` runs, whether or not it succeeds. -/
def makeChild (cx : Cx) (h : Nat) (toks : List Tok) : Cx × Except Err Cx :=
  let cx := cx.assert cx.hasChild .makeChildNoChild
  ({ cx with markers := [], errs := [] }, new h toks false cx.markers cx.errs)

/-- `Context::error` (`context.rs:151-156`). -/
def error (cx : Cx) (e : Err) : Cx := { cx with errs := cx.errs ++ [e], log := cx.log ++ [e] }

/-- `Context::has_error` (`context.rs:166-168`). -/
def hasError (cx : Cx) : Bool := !cx.errs.isEmpty

/-- `Context::join_child` (`context.rs:141-149`); a panic inside the child's expansion is a panic
of the run. -/
def joinChild (cx child : Cx) : Cx :=
  let cx := cx.assert cx.markers.isEmpty .joinMarkers
  { cx with
    markers := child.markers.dropLast
    errs := cx.errs ++ child.errs
    panics := cx.panics ++ child.panics
    log := cx.log ++ child.log }

/-- `Context::visit_last` (`context.rs:170-172`). -/
def visitLast (cx : Cx) : Bool := cx.lastMode != .never && cx.mode != .try_

/-- `Context::is_dummy` (`context.rs:177-181`). -/
def isDummy (cx : Cx) : Bool := cx.args.isEmpty && cx.traits.isEmpty

/-- `Context::is_marker_macro_exact` (`context.rs:207-209`). -/
def isMarkerExact (cx : Cx) (mac : Path) : Bool := mac.isIdent cx.marker

/-- `Context::is_marker_macro` (`context.rs:197-204`). -/
def isMarker (cx : Cx) (mac : Path) : Bool :=
  let exact := cx.isMarkerExact mac
  if exact || cx.root then exact else cx.markers.any (mac.isIdent ·)

/-- `Context::is_marker_expr` (`context.rs:189-194`). -/
def isMarkerExpr (cx : Cx) : Node → Bool
  | .mk (.eMacro p _) _ _ => cx.isMarker p
  | _ => false

/-- `Builder::next_expr` and `Context::next_expr_with_attrs` (`context.rs:343-352, 217-219`). -/
def nextExprAttrs (cx : Cx) (attrs : List Attr) (e : Node) : Cx × Node :=
  let v := variantIdent cx.variants.length
  ({ cx with variants := cx.variants ++ [v] }, exprCall attrs (Path.ofIdents [cx.ident, v]) e)

/-- `Context::next_expr` (`context.rs:212-214`). -/
def nextExpr (cx : Cx) (e : Node) : Cx × Node := cx.nextExprAttrs [] e

/-- `Context::replace_boxed_expr` (`context.rs:221-230`) on the optional value of a
`break`/`return`, given as the kids of that node. -/
def replaceBoxed (cx : Cx) : List Node → Cx × List Node
  | [] =>
    let r := cx.nextExpr unitE
    (r.1, [r.2])
  | e :: rest =>
    if cx.isMarkerExpr e then (cx, e :: rest)
    else
      let r := cx.nextExpr e
      (r.1, r.2 :: rest)

/-- `Builder::build` (`context.rs:354-368`). -/
def buildEnum (cx : Cx) : Node :=
  .mk (.sItem (.genEnum cx.ident cx.variants (cx.variants.map fun v => (v, v))
    (cx.args ++ cx.traits))) [] []

/-- `Context::build` (`context.rs:246-274`); `some item` when the closure `f` is called. -/
def build (cx : Cx) : Cx × Option Node :=
  if cx.hasError then (cx, none)
  else if cx.variants.length = 1 ∨ (cx.variants.length = 0 ∧ !cx.hasChild) then
    (cx.error (.twoOrMore cx.lastMode (!cx.variants.isEmpty)), none)
  else if cx.variants.isEmpty then (cx, none)
  else (cx, some cx.buildEnum)

end Cx

end AutoEnums
