"""The mutants: (file, text, replacement, edit in words, the claim it breaks)."""
V = "Verif/Visitor.lean"; CE = "Verif/ChildExpr.lean"; CX = "Verif/Context.lean"
TA = "Verif/TypeAnalysis.lean"; AR = "Verif/Args.lean"; UT = "Verif/Utils.lean"
DX = "Verif/Derive/Expand.lean"; DE = "Verif/Derive/Emit.lean"; DT = "Verif/Derive/Table.lean"; DB = "Verif/Derive/Bounds.lean"
SY = "Verif/Syntax.lean"
MUTANTS = [
 (CX, 'else if cx.variants.length = 1 ∨ (cx.variants.length = 0 ∧ !cx.hasChild) then',
  'else if (cx.variants.length = 0 ∧ !cx.hasChild) then', 'Context::build accepts one variant', 'C03: fewer than two variants is an error'),
 (CX, 'else if cx.variants.length = 1 ∨ (cx.variants.length = 0 ∧ !cx.hasChild) then',
  'else if cx.variants.length ≤ 2 ∧ (cx.variants.length ≠ 0 ∨ !cx.hasChild) then', 'Context::build rejects two variants (off by one)', 'C03: two variants are accepted'),
 (CX, 'else if cx.variants.length = 1 ∨ (cx.variants.length = 0 ∧ !cx.hasChild) then',
  'else if cx.variants.length = 1 ∨ cx.variants.length = 0 then', 'Context::build ignores has_child', 'C03: no variants are accepted with an inner attribute'),
 (CX, '(cx.variants.map fun v => (v, v))', '(cx.variants.dropLast.map fun v => (v, v))', 'the generated enum lacks the last variant', 'C01: every used variant is declared'),
 (CX, '(cx.args ++ cx.traits))) [] []', '(cx.traits ++ cx.args))) [] []', 'derive arguments in the wrong order', 'C02/C47: the traits are args then inferred'),
 (CX, '''    (cx.args ++ cx.traits))) [] []''', '''    cx.args)) [] []''', 'inferred traits are not derived', 'C47'),
 (CX, 'let v := variantIdent cx.variants.length\n  ({ cx with variants := cx.variants ++ [v] }, exprCall', 'let v := variantIdent cx.variants.length\n  ({ cx with variants := [v] ++ cx.variants }, exprCall', 'variants are declared in reverse order of use', 'C01: variants are declared in order'),
 (CX, 'let v := variantIdent cx.variants.length\n  ({ cx with', 'let v := variantIdent (cx.variants.length - 1)\n  ({ cx with', 'variant numbers repeat', 'C01: no variant is used twice'),
 (CX, '({ cx with variants := cx.variants ++ [v] }, exprCall attrs (Path.ofIdents [cx.ident, v]) e)', '({ cx with variants := cx.variants ++ [v] }, exprCall [] (Path.ofIdents [cx.ident, v]) e)', 'attributes of a marker call are dropped', 'C12'),
 (CX, 'if markers.contains m then .error (.dupMarkerName m) else .ok (build m)', '.ok (build m)', 'duplicate marker names are accepted', 'C21'),
 (CX, 'markers := child.markers.dropLast', 'markers := child.markers', 'join_child keeps the marker of the child', 'C18/C21: marker stack'),
 (CX, 'errs := cx.errs ++ child.errs\n', 'errs := cx.errs\n', 'errors of inner attributes are lost', 'C17'),
 (CX, 'cx.lastMode != .never && cx.mode != .try_', 'cx.lastMode != .never', 'tail expressions are wrapped in ? mode', 'C10'),
 (CX, 'cx.lastMode != .never && cx.mode != .try_', 'cx.mode != .try_', 'the value of a statement with semicolon is wrapped', 'C22/C39'),
 (CX, 'cx.args.isEmpty && cx.traits.isEmpty', 'cx.args.isEmpty', 'dummy ignores inferred traits', 'C16/C47'),
 (CX, 'if exact || cx.root then exact else cx.markers.any (mac.isIdent ·)', 'exact', 'markers of enclosing attributes are not recognised by inner ones', 'C12/C20: enclosing marker'),
 (CX, 'let r := cx.nextExpr unitE\n    (r.1, [r.2])', '(cx, [])', 'return/break without value are not wrapped', 'C08/C07'),
 (CX, 'if cx.isMarkerExpr e then (cx, e :: rest)\n    else\n      let r := cx.nextExpr e', 'if false then (cx, e :: rest)\n    else\n      let r := cx.nextExpr e', 'returned markers are wrapped twice', 'C08/C12'),
 (CX, 'if cx.hasError then (cx, none)\n  else', 'if false then (cx, none)\n  else', 'build does not stop at errors', 'C17/C48'),
 (CX, 'twoOrMore cx.lastMode (!cx.variants.isEmpty)', 'twoOrMore cx.lastMode cx.variants.isEmpty', 'swapped wording of the error', 'C03 (message)'),
 (CX, 'args := a.args,', 'args := a.args.dropLast,', 'the last trait argument is lost', 'C02'),
 (CE, '["unreachable", "panic"].any', '["panic"].any', 'unreachable! is not recognised', 'C05/C30: unreachable!() arms are skipped'),
 (CE, 'pathEq p ["std", "core"] ["option", "Option", "None"]', 'pathEq p ["std"] ["option", "Option", "None"]', 'core::option::Option::None is not recognised', 'C30'),
 (CE, '(anyEmptyAttr as NEVER || anyAttr as NAME)) ||\n    match k, ks with', 'anyEmptyAttr as NEVER) ||\n    match k, ks with', 'inner attributes are not exempt', 'C05/C20'),
 (CE, '| .eMethodCall _, r :: _ => isUnreachable cx r\n    | .eParen, [e] => isUnreachable cx e', '| .eMethodCall _, r :: _ => isUnreachable cx r', 'diverging expressions in parentheses are wrapped', 'C05'),
 (CE, '| .eContinue _, _ => true', '| .eContinue _, _ => false', 'continue is not recognised as diverging', 'C05'),
 (CE, '| .eMatch, _ :: arms => isUnreachableArms cx arms', '| .eMatch, _ :: arms => isUnreachableArms cx (arms.drop 1)', 'the first arm of a match is ignored', 'C05/C25'),
 (CE, 'anyEmptyAttr as NEVER || anyEmptyAttr as NESTED || isUnreachable cx b ||\n        findNested (.mk k as ks)', 'anyEmptyAttr as NEVER || anyEmptyAttr as NESTED || isUnreachable cx b', 'arms containing #[nested] are wrapped', 'C14'),
 (CE, 'anyEmptyAttr as NEVER || anyEmptyAttr as NESTED || isUnreachable cx b ||\n        findNested (.mk k as ks)', 'anyEmptyAttr as NESTED || isUnreachable cx b ||\n        findNested (.mk k as ks)', '#[never] arms are wrapped', 'C13/C05'),
 (CE, '| .mk (.arm p) as [g, b] => let r := cx.nextExpr b; (r.1, .mk (.arm p) as [g, r.2])', '| .mk (.arm p) as [g, b] => let r := cx.nextExpr g; (r.1, .mk (.arm p) as [r.2, b])', 'the guard is wrapped instead of the body', 'C05'),
 (CE, 'e.anyEmptyAttr NESTED || isUnreachable cx e || findNestedL stmts', 'e.anyEmptyAttr NESTED || findNestedL stmts', 'diverging branches of if are wrapped', 'C06'),
 (CE, 'let r := cx.nextExpr (exprBlock stmts)\n    (r.1, [tailS r.2])', 'let r := cx.nextExpr (exprBlock stmts)\n    (r.1, [semiS r.2])', 'a wrapped branch gets a semicolon', 'C06/C27'),
 (CE, '(r.1.error .missingElse, .mk .eIf as [c, .mk .block asb r.2])', '(r.1, .mk .eIf as [c, .mk .block asb r.2])', 'a missing else is accepted', 'C06: missing else is rejected'),
 (CE, 'let r2 := wrapBlock r.1 e.kids\n', 'let r2 := (r.1, e.kids)\n', 'the else branch is not wrapped', 'C06'),
 (CE, 'let r2 := visitIf r.1 e\n', 'let r2 := (r.1, e)\n', 'else if is not wrapped', 'C06'),
 (CE, '(!nested && other.isNone) ||', '(other.isNone) ||', 'unlabelled breaks of inner loops are wrapped', 'C07'),
 (CE, '| some a, some b => a == b\n    | _, _ => false', '| some _, some _ => true\n    | _, _ => false', 'breaks with other labels are wrapped', 'C07'),
 (CE, 'if k.isOpaque || (k.isExpr && anyEmptyAttr as NEVER) then (cx, .mk k as ks)', 'if k.isOpaque then (cx, .mk k as ks)', '#[never] breaks are wrapped', 'C07/C13'),
 (CE, '| .eClosure _ | .eAsync => (cx, .mk k as ks)\n', '| .eAsync => (cx, .mk k as ks)\n', 'breaks inside closures are wrapped', 'C07'),
 (CE, 'let r := loopVisitL label true cx ks\n', 'let r := loopVisitL label nested cx ks\n', 'the nesting flag is not set', 'C07'),
 (CE, 'if label.isNone then (cx, .mk k as ks)\n        else\n', 'if !label.isNone then (cx, .mk k as ks)\n        else\n', 'inner loops are skipped if the outer is labelled', 'C07'),
 (CE, 'if !cx.visitLast || isUnreachable cx (.mk k as ks) then (cx, .mk k as ks)', 'if !cx.visitLast then (cx, .mk k as ks)', 'diverging results are searched for branches', 'C04/C05'),
 (CE, '| .eUnsafe, ks => let r := childLast cx ks; (r.1, .mk .eUnsafe as r.2)', '', 'unsafe blocks are not looked through', 'C04'),
 (CE, '| [.mk (.sExpr false) as [e]] =>\n    let r := childExpr cx e; (r.1, [.mk (.sExpr false) as [r.2]])', '| [.mk (.sExpr b) as [e]] =>\n    let r := childExpr cx e; (r.1, [.mk (.sExpr b) as [r.2]])', 'the last statement with semicolon counts as result', 'C04'),
 (CE, 'let r := childExpr cx e; (r.1, .mk (.eMethodCall m) as (r.2 :: args))', '(cx, .mk (.eMethodCall m) as (e :: args))', 'method receivers are not looked through', 'C04'),
 (CE, '| .eClosure _ => { sc with closure := true }', '| .eClosure _ => { sc with closure := false }', 'the closure flag is never set', 'C09'),
 (CE, '| .eTry, e :: _ =>\n    if !closure && !anyEmptyAttr as NEVER && !cx.isMarkerExpr e then ⟨1, 0⟩', '| .eTry, e :: _ =>\n    if !closure && !cx.isMarkerExpr e then ⟨1, 0⟩', '#[never] ? are counted', 'C11'),
 (V, 'if !sc.closure && !n.anyEmptyAttr NEVER then\n    match n with\n    | .mk .eReturn as ks =>', 'if !n.anyEmptyAttr NEVER then\n    match n with\n    | .mk .eReturn as ks =>', 'returns of closures are wrapped', 'C09'),
 (V, 'if !sc.closure && !n.anyEmptyAttr NEVER then\n    match n with\n    | .mk .eReturn as ks =>', 'if !sc.closure then\n    match n with\n    | .mk .eReturn as ks =>', '#[never] returns are wrapped', 'C08/C13'),
 (V, 'if !sc.tryBlock && !sc.closure && !n.anyEmptyAttr NEVER then', 'if !sc.closure && !n.anyEmptyAttr NEVER then', '? of try blocks are desugared', 'C10/C11'),
 (V, 'if cx.isMarkerExpr e then (cx, n)\n      else\n        let r := cx.nextExpr (pathE (.ofIdents ["err"]))', 'if false then (cx, n)\n      else\n        let r := cx.nextExpr (pathE (.ofIdents ["err"]))', 'marker!(..)? is desugared', 'C10/C12'),
 (V, '(r.1, .mk .eMatch as (e :: tryArms r.2))', '(r.1, .mk .eMatch as (e :: (tryArms r.2).reverse))', 'arms of the desugared ? are swapped', 'C10'),
 (V, '[pathE (.ofIdents ["val"])]', '[pathE (.ofIdents ["err"])]', 'desugared ? evaluates to the wrong variable', 'C10'),
 (V, 'let cx := if isName then { cx with hasChild := true } else cx\n  let sc := sc.check n.kind', 'let sc := sc.check n.kind', 'has_child is not set at inner attributes', 'C03/C18'),
 (V, 'let sc := if isName then { sc with foreign := true } else sc\n  let cx := if isName then { cx with hasChild := true } else cx\n  let sc := sc.check n.kind', 'let cx := if isName then { cx with hasChild := true } else cx\n  let sc := sc.check n.kind', 'inner regions are not foreign', 'C20'),
 (V, '| some (a, n) => visitNested sc r.1 n a\n    | none => r\n  let r := vsVisitExpr', '| some (_, n) => (r.1, n)\n    | none => r\n  let r := vsVisitExpr', '#[nested] is removed but has no effect', 'C14'),
 (V, '    let r := visitMarker sc r.1 r.2\n    findRemoveAttrs sc r.1 r.2', '    findRemoveAttrs sc r.1 r.2', 'markers are not replaced', 'C12'),
 (V, 'let r := visitMarker sc r.1 r.2\n    findRemoveAttrs sc r.1 r.2', 'visitMarker sc r.1 r.2', '#[never] stays on expressions', 'C15'),
 (V, 'if !sc.foreign || r.1.marker != DEFAULT_MARKER then', 'if !sc.foreign then', 'custom markers of the outer attribute are ignored in inner regions', 'C20'),
 (V, 'if cx.isMarkerExact p then', 'if cx.isMarker p then', 'an inner attribute replaces the markers of the outer ones', 'C20/C12'),
 (V, 'let r := visitNested sc cx b a; (r.1, .mk (.arm p) as [g, r.2])', '(cx, .mk (.arm p) as [g, b])', '#[nested] is ignored on arms with guards', 'C14'),
 (V, 'let r := visitNested sc cx e a\n          (r.1, .mk (.sLocal p) as (r.2 :: els))', '(cx, .mk (.sLocal p) as (e :: els))', '#[nested] let has no effect', 'C14'),
 (V, 'mode := if count.try_ ≥ 2 then .try_ else .ret count.return_', 'mode := if count.try_ ≥ 1 then .try_ else .ret count.return_', 'one ? selects ? mode in closures', 'C11'),
 (V, 'decide ((visitFn cx block).try_ ≥ 2)', 'decide ((visitFn cx block).try_ > 2)', 'two ? do not select ? mode', 'C11'),
 (V, '| .mk (.implTrait _) _ => .ret (visitFn cx block).return_', '| .mk (.implTrait _) _ => cx.mode', 'returns are not wrapped in functions returning impl Trait', 'C08'),
 (V, 'pathEq p ["std", "core"] ["result", "Result"] &&', '', '? mode for any generic type with two arguments', 'C11'),
 (V, '(cx, .mk k as [.mk .block asb (item :: ss)])', '(cx, .mk k as [.mk .block asb (ss ++ [item])])', 'the enum is placed at the end of the function', 'C26'),
 (V, 'exprBlock [item, tailS e]', 'exprBlock [item, semiS e]', 'the value of the expression is dropped', 'C26'),
 (V, 'if hasSemi then { cx with lastMode := .never } else cx', 'if !hasSemi then { cx with lastMode := .never } else cx', 'semicolon handling inverted', 'C22/C39'),
 (V, 'if cx.isDummy then dummyExpr rec cx e else expandBuild env rec cx e', 'expandBuild env rec cx e', 'the dummy attribute expands', 'C16'),
 (V, '| [] => (cx.error .uninitLet, .mk (.sLocal pat) as [])', '| [] => (cx, .mk (.sLocal pat) as [])', 'uninitialised lets are accepted', 'C38/C24'),
 (V, 'let r := if ss.isEmpty then (cx.error .emptyFn, ss) else childLast cx ss', 'let r := childLast cx ss', 'empty functions are accepted', 'C24'),
 (V, '(cx.error .badTarget, .mk (.sItem i) as ks)', '(cx, .mk (.sItem i) as ks)', 'items are accepted', 'C24'),
 (V, '| none => .errors [.inputParse, .badTarget]', '| none => .errors [.badTarget]', 'one of two errors is dropped', 'C24/C17'),
 (V, 'if r.1.errs.isEmpty then .code r.2 else .errors r.1.errs', '.code r.2', 'errors are ignored', 'C17'),
 (V, '(r.1, if r.2 then .plain s else .typed s ty)', '(r.1, .plain s)', 'let annotations are always removed', 'C46/C47'),
 (V, '(w.1.joinChild r.1, r.2)\n    | _ =>', '(w.1, r.2)\n    | _ =>', 'the errors of a child are not joined', 'C17/C48'),
 (V, 'cx.args.isEmpty && cx.variants.isEmpty && decide (count < 2)', 'cx.args.isEmpty && decide (count < 2)', 'type_analysis exit drops variants', 'C01/C47'),
 (TA, '!args.contains q then q ::', 'args.contains q then q ::', 'only traits already given are inferred', 'C47'),
 (TA, '"Deref", "DerefMut",', '"Deref",', 'DerefMut is not inferred', 'C47'),
 (TA, 'collectTyL args kids ++ collectBounds args bs', 'collectBounds args bs', 'types inside impl Trait are not searched', 'C47 (see C46)'),
 (AR, 'if m.isSome then .error .dupMarkerArg', 'if false then .error .dupMarkerArg', 'two marker arguments are accepted', 'C23'),
 (AR, '| some (p, []) => .ok ⟨acc ++ [p], m⟩\n      | some (p, .comma :: rest) => parseArgsLoop n rest (acc ++ [p]) m', '| some (p, []) => .ok ⟨acc ++ [p], m⟩\n      | some (p, .comma :: rest) => parseArgsLoop n rest ([p] ++ acc) m', 'trait arguments in reverse order', 'C23/C02'),
 (AR, '| .ident "marker" :: .eq :: _ => .error .argParse', '| .ident "marker" :: .eq :: _ => .ok ⟨acc, m⟩', 'marker = without a name is accepted', 'C23'),
 (UT, 'if ids.length = 1 ∧ ids.head? = expected.getLast? then true', 'if ids.head? = expected.getLast? then true', 'a path starting with the name is recognised', 'C30'),
 (UT, 'crates.any (c == ·) && rest == expected', 'rest == expected', 'any crate is recognised', 'C30'),
 (UT, 'if p a then some (a, as)\n', 'if p a then some (a, a :: as)\n', 'attributes are found but not removed', 'C15/C19'),
 (UT, 'a.is s && a.form == .path', 'a.is s', '#[never(..)] counts as #[never]', 'C13/C45'),
 (DX, '(["Ord"], none, ["PartialOrd", "Eq", "PartialEq"])', '(["Ord"], none, ["PartialOrd", "Eq"])', 'Ord does not pull PartialEq', 'C31'),
 (DX, 'if s = n0 then some n1 else if s = n1 then some n0 else none', 'if s = n0 then some n1 else none', 'aliases only in one direction', 'C32/C33'),
 (DX, '(deps.filter fun x => !args.any fun a => a.1 == x)', 'deps', 'dependencies are added although given', 'C32'),
 (DX, 'if existsAlias fs a.1 v then v else v ++ [(a.1, some a.2)]', 'v ++ [(a.1, some a.2)]', 'aliases are not merged', 'C33'),
 (DX, '| none, some p => (emit fs d rest).map fun o => { o with derive := p :: o.derive }', '| none, some _ => emit fs d rest', 'unknown traits are dropped', 'C34'),
 (DX, 'i.path != "ty_impls::transpose" || checkFields d', 'true', 'Transpose is derived for fields that are not parameters', 'C42..C44'),
 (DX, 'guard := i.pin || o.guard', 'guard := i.pin', 'the Unpin/Drop guard is lost', 'C40/C41'),
 (DX, '| some i, _ =>\n      if derivable d i then', '| some i, _ =>\n      if true then', 'failing derives are ignored', 'C43'),
 (DE, '⟨v.1, .call v.2 i.trait s.name (.var "x" :: s.params.map .var)⟩ }', '⟨v.1, .call v.2 i.trait s.name (s.params.map .var ++ [.var "x"])⟩ }', 'receiver passed last', 'C35'),
 (DE, '.call v.2 i.trait method (.pinned "x" :: args.map .var)', '.call v.2 i.trait method (.pinnedMove "x" :: args.map .var)', 'the payload is moved before pinning', 'C40'),
 (DE, '⟨v.1, .mapErr (.map (.var "x") v.1) v.1⟩', '⟨v.1, .map (.var "x") v.1⟩', 'transpose does not wrap errors', 'C42'),
 (DE, 'arms := d.variants.map fun v => ⟨v.1, .mapErr (.var "x") v.1⟩', 'arms := d.variants.map fun v => ⟨v.1, .map (.var "x") v.1⟩', 'transpose_err maps Ok', 'C42'),
 (DT, '⟨⟨"consume", .pin, ["amt"]⟩, .call "consume" ["amt"]⟩] },\n  -- `src/derive/external/futures01.rs:3-18`', '⟨⟨"consume", .pin, ["amt"]⟩, .call "poll_fill_buf" ["amt"]⟩] },\n  -- `src/derive/external/futures01.rs:3-18`', 'consume calls another method', 'C35/C36'),
 (DT, 'manual := [⟨⟨"poll_read", .pin, ["cx", "buf"]⟩, .call "poll_read" ["cx", "buf"]⟩,\n      ⟨⟨"poll_read_vectored"', 'manual := [⟨⟨"poll_read", .pin, ["cx", "buf"]⟩, .call "poll_read" ["buf", "cx"]⟩,\n      ⟨⟨"poll_read_vectored"', 'swapped arguments in poll_read', 'C35'),
 (DT, 'trait := "::futures::stream::Stream", assoc := ["Item"], pin := true,', 'trait := "::futures::stream::Stream", assoc := ["Item"],', 'a pinned trait without the Unpin guard', 'C40/C41'),
 (DT, 'names := ["rayon::ParallelIterator"]', 'names := ["ParallelIterator"]', 'wrong name of a trait', 'C34/C31'),
 (DB, '.trait t i.trait i.args (equated i ty)', '.trait t i.trait i.args []', 'associated types are not equated', 'C49/C50'),
 (DB, 'if i.fnLike then ["(__T,)"] else i.params', 'i.params', 'the Fn traits take their parameters as arguments', 'C49'),
 (DB, '⟨fst, i.superTrait, i.args, n⟩', '⟨fst, i.trait, i.args, n⟩', 'the inherited associated type is looked up in the trait itself', 'C49'),
 (DB, 'if i.static then d.variants.map fun v => .static v.2 else []', '[]', "no 'static bounds for Error", 'C49'),
 (DB, 'else .trait ty i.trait i.args [] :: tys.map', 'else tys.map', 'the first type is not bounded', 'C49/C53'),
 (DB, '| v :: _ => i.assoc.map fun n =>', '| v :: _ => (i.super.toList ++ i.assoc).map fun n =>', 'inherited associated types are defined again', 'C50'),
 (DB, 'trait := "::core::marker::Unpin" }', 'trait := "::core::marker::Send" }', 'the wrong marker trait is implemented', 'C53'),
 (DB, 'if o.guard then [(unpinImpl.trait', 'if !o.guard then [(unpinImpl.trait', 'Unpin is implemented when not needed', 'C53'),
 (DB, 'fun k => "__E" ++ toString k', 'fun _ => "__E"', 'transpose_result uses one error parameter several times', 'C52'),
 (DB, 'else [ps ++ i.params]', 'else [i.params ++ ps ++ i.params.take 1]', 'the first parameter of the trait is pushed twice', 'C52'),
 (DT, 'generics := [("extend", ["__T"])]', 'generics := [("extend", ["__A"])]', 'a method parameter with the name of the parameter of the trait', 'C52'),
 (DT, 'super := some "Target",', '', 'DerefMut does not equate Target', 'C49/C51'),
 (DT, 'static := true }', '}', "Error without 'static", 'C49'),
 (DT, 'params := ["R"] }', 'params := ["__R"] }', 'the parameter of Coroutine gets underscores', 'C52_counterexample (this edit repairs the code)'),
 (V, 'decide (count < 2)', 'decide (count ≤ 2)', 'with an inferred trait a function with two returns and no branch is left alone', 'C08/C54'),
 (V, 'cx.args.isEmpty && cx.variants.isEmpty && decide (count < 2)', 'cx.args.isEmpty && decide (count < 2)', 'with an inferred trait a function with branches and fewer than two returns is given up half-way', 'C54/C01'),
 (V, 'cx.args.isEmpty && cx.variants.isEmpty && decide (count < 2)', 'cx.variants.isEmpty && decide (count < 2)', 'a function with a named trait is left alone too', 'C03/C12'),
 (V, '(r.1, if r.2 then .plain s else .typed s ty)', '(r.1, if r.2 then .typed s ty else .plain s)', 'the annotation is dropped if nothing was inferred from it', 'C16/C54'),
 (CE, '(anyEmptyAttr as NEVER || anyAttr as NAME)', '(anyEmptyAttr as NEVER)', 'an arm with an inner attribute is wrapped by the outer attribute', 'C55/C20'),
 (CE, '| _ => !anyAttr as NAME && (anyEmptyAttr as NESTED', '| _ => (anyEmptyAttr as NESTED', 'a #[nested] in the input of an inner attribute counts for the outer one', 'C55/C05'),
 (V, "let sc := if isName then { sc with foreign := true } else sc\n  let cx := if isName then { cx with hasChild := true } else cx\n  let sc := sc.check", "let cx := if isName then { cx with hasChild := true } else cx\n  let sc := sc.check", 'the outer attribute processes helper attributes of inner inputs', 'C55/C20'),
 (V, "      let sc := if isName then { sc with foreign := true } else sc\n      let cx := if isName then { cx with hasChild := true } else cx\n      vsVisitStmt env rec .visitor", "      let cx := if isName then { cx with hasChild := true } else cx\n      vsVisitStmt env rec .visitor", 'the same for a let with an inner attribute', 'C55/C20'),
 (V, '"::core::result::Result::Ok(val)") [] [pathE (.ofIdents ["val"])]', '"::core::result::Result::Ok(val)") [] [pathE (.ofIdents ["err"])]', 'a desugared ? gives the wrong variable', 'C10/C28'),
 (V, '⟨"Err", none⟩]⟩, err]])]]]', '⟨"Ok", none⟩]⟩, err]])]]]', 'a desugared ? returns Ok of the error', 'C10/C28'),
 (V, '(r.1, .mk .eMatch as (e :: tryArms r.2))', '(r.1, .mk .eMatch as (e :: tryArms (pathE (.ofIdents ["err"]))))', 'the error of a desugared ? is not wrapped', 'C10/C28'),
 (V, 'if !sc.tryBlock && !sc.closure && !n.anyEmptyAttr NEVER then\n    match n with\n    | .mk .eTry', 'if !sc.closure && !n.anyEmptyAttr NEVER then\n    match n with\n    | .mk .eTry', 'the ? of a try block are desugared', 'C09/C28'),
 (V, '(if a.form == .path then cx else cx.error .neverNotPath, n)', '(cx, n)', '#[never(..)] is accepted', 'C56: #[never] with arguments is reported'),
 (V, '| some (_, n) => (r.1.error .recRemoved, n)', '| some (_, n) => (r.1, n)', '#[rec] is removed without a report', 'C56/C13: #[rec] is reported'),
 (V, 'if a.form == .path then childExpr cx n else (cx.error .nestedNotPath, n)', 'childExpr cx n', '#[nested(..)] is accepted', 'C56: #[nested] with arguments is reported'),
 (V, '| _ => (cx.error .markerParse, failedMarker)', '| _ => (cx, failedMarker)', 'a marker with unparsable arguments is not reported', 'C56'),
 (V, '| [e] => if cx.hasError then (cx, e) else cx.nextExprAttrs as e', '| [e] => if cx.hasError then (cx, .mk (.eMacro p t) as ks) else cx.nextExprAttrs as e', 'after an error markers are left in place, so that their attributes are looked at', 'C56: attributes of a marker around an error are not looked at'),
 (V, """      | none => (cx, n)
    let w := walk (rec .visitor sc) r.1 r.2
    findRemoveAttrs sc w.1 w.2

/-- `visit_stmt_mut`""", """      | none => (cx, n)
    let w := walk (rec .visitor sc) r.1 r.2
    if w.1.hasError then w else findRemoveAttrs sc w.1 w.2

/-- `visit_stmt_mut`""", 'the helper attributes of an arm are not looked at after an error inside', 'C56: they are'),
 (V, '| some (a, .mk (.arm p) as [g, b]) =>\n        let r := visitNested sc cx b a; (r.1, .mk (.arm p) as [g, r.2])', '| some (_, .mk (.arm p) as [g, b]) =>\n        (cx, .mk (.arm p) as [g, b])', '#[nested] on an arm with a guard is ignored', 'C56/C05: it is processed'),
 (CX, '.twoOrMore cx.lastMode (!cx.variants.isEmpty)', '.twoOrMore .default (!cx.variants.isEmpty)', 'the message about too few branches does not mention the semicolon', 'C56 (message)'),
 (V, """  if n.kind.isExpr then
    if cx.hasError then (cx, n) else visitExpr env rec sc cx n false""", """  if n.kind.isExpr then
    if cx.hasError then walk (rec .visitor sc) cx n else visitExpr env rec sc cx n false""", 'expressions after an error are still entered', 'C56: only the first fault and what is around it is reported'),
 (CE, '| .eMethodCall _, r :: _ => isUnreachable cx r', '| .eMethodCall m, r :: _ => m != "catch" && isUnreachable cx r', 'a method called catch makes diverging code complete', 'C58: method names do not matter'),
 (CE, '| some a, some b => a == b', '| some a, some b => a.length == b.length', 'labels of the same length are taken to be equal', 'C07/C58'),
 (CE, """def wrapArm (cx : Cx) (n : Node) : Cx × Node :=
  if skipArm cx n then (cx, n)""", """def wrapArm (cx : Cx) (n : Node) : Cx × Node :=
  if skipArm cx n || n.kind == .arm "!" then (cx, n)""", 'arms with the pattern ! are not wrapped', 'C05/C58: patterns do not matter'),
 (CE, """    | .eBreak _, _ => true
    | .eContinue _, _ => true""", """    | .eBreak _, _ => true
    | .eUnary "!", [.mk .eTuple _ []] => true
    | .eContinue _, _ => true""", '!() is taken to diverge', 'C25/C58: operators do not matter'),
 (V, '| .mk (.eClosure i) as [body] =>\n    if cx.visitLast then', '| .mk (.eClosure i) as [body] =>\n    if cx.visitLast && i != "_" then', 'closures with one ignored parameter are not entered', 'C03/C58: parameters do not matter'),
 (V, 'let cx := { cx with mode := retMode cx ty block }', 'let cx := { cx with mode := if cx.args.length ≤ 1 then retMode cx ty block else cx.mode }', 'with two or more traits the returns of a function are not wrapped', 'C08/C59'),
 (CX, 'if cx.variants.length = 1 ∨', 'if cx.variants.length = 1 ∧ !cx.args.contains (.ofIdents ["Copy"]) ∨', 'one branch suffices for Copy', 'C03/C59'),
 (V, '(r.1, if r.2 then .plain s else .typed s ty)', '(r.1, if r.2 || !cx.args.isEmpty then .plain s else .typed s ty)', 'the type of a let is dropped if any trait is named', 'C16/C54/C59_annotation'),
 (V, 'let cx := if hasSemi then { cx with lastMode := .never } else cx\n  if cx.isDummy', 'let cx := if hasSemi && !cx.args.contains (.ofIdents ["Future"]) then { cx with lastMode := .never } else cx\n  if cx.isDummy', 'for Future the branches of a statement with a semicolon are wrapped', 'C17/C59'),
 (CX, '(.genEnum cx.ident cx.variants (cx.variants.map fun v => (v, v))', '(.genEnum cx.ident cx.variants.reverse (cx.variants.map fun v => (v, v))', 'the type parameters of the enum are declared in reverse order', 'C02/C60: Transpose is then rejected'),
 (DX, '(if d.params.isEmpty || d.trailing then [","] else []) ++ [">"]', '(if d.params.length ≥ 3 || d.trailing then [","] else []) ++ [">"]', 'Transpose demands a trailing comma from enums with three or more parameters', 'C37/C60: generated enums are accepted'),
 (DX, "    | none, some p => (emit fs d rest).map fun o => { o with derive := p :: o.derive }", "    | none, some p => if p.segs.length > 1 then .error (.derive s) else (emit fs d rest).map fun o => { o with derive := p :: o.derive }", 'qualified paths of unsupported traits are rejected', 'C34/C60: they are passed to #[derive]'),
 (DX, "| some (p, []) => .ok (acc ++ [(toTrimmedString p, p)])", "| some (p, []) => .ok (if acc.length < 5 then acc ++ [(toTrimmedString p, p)] else acc)", 'a sixth trait without trailing comma is dropped', 'C38/C60: every trait is provided'),
 (CX, "(cx.args ++ cx.traits))) [] []", "(if cx.variants.length > 9 then cx.args.take 1 else cx.args ++ cx.traits))) [] []", 'an enum with ten or more variants gets one trait only', 'C02/C60'),
 (CE, "anyEmptyAttr as NEVER || anyEmptyAttr as NESTED || isUnreachable cx b ||\n        findNested (.mk k as ks)", "(anyEmptyAttr as NEVER && ks.length == 1) || anyEmptyAttr as NESTED || isUnreachable cx b ||\n        findNested (.mk k as ks)", '#[never] has no effect on arms with a guard', 'C13/C57'),
 (CE, '| .eLoop _ | .eForLoop _ _ | .eWhile _ =>\n        if label.isNone', '| .eLoop _ | .eForLoop _ _ =>\n        if label.isNone', 'breaks of a while loop inside an unlabelled result loop are wrapped', 'C07/C57'),
 (CE, '| .block | .sExpr _ | .iFn _ _ => findNestedL ks', '| .sExpr true => false\n      | .block | .sExpr _ | .iFn _ _ => findNestedL ks', '#[nested] in a statement with a semicolon is not found', 'C05/C06'),
 (CE, '''    pathEq p ["std", "core"] ["result", "Result", "Err"]''', '''    pathEq p ["std", "core"] ["result", "Result", "Err"] || p.isIdent "Ok"''', 'Ok(..)? counts as diverging', 'C25/C57'),
 (CE, '  | _ => isUnreachableLast cx stmts\n\n/-- `if !skip', '  | _ => isUnreachableLast cx stmts || stmts.isEmpty\n\n/-- `if !skip', 'empty blocks are not wrapped', 'C06/C57'),
 (CE, '| .eParen, [e] => let r := childExpr cx e; (r.1, .mk .eParen as [r.2])', '| .eParen, [e] => let r := childExpr cx e; (r.1, .mk .eParen [] [r.2])', 'attributes of parentheses in result position are dropped', 'C04'),
 (CE, '    | some a, some b => a == b\n', '    | some a, some b => nested || a == b\n', 'labels are ignored in nested loops', 'C07/C57'),
 (V, '      if cx.isMarkerExpr e then (cx, n)\n      else\n        let r := cx.nextExpr (pathE (.ofIdents ["err"]))', '      if cx.isMarkerExpr e || e.kind == .eTry then (cx, n)\n      else\n        let r := cx.nextExpr (pathE (.ofIdents ["err"]))', 'the outer ? of a?? is not desugared', 'C10/C57'),
 (V, '    | .mk .eReturn as ks =>\n      let r := cx.replaceBoxed ks', '    | .mk .eReturn as ks =>\n      let r := if cx.variants.length ≥ 10 then (cx, ks) else cx.replaceBoxed ks', 'after ten variants returns are not wrapped', 'C08/C28/C57'),
 (V, '''⟨"Err", none⟩]⟩, err]])]]]''', '''⟨"Err", none⟩]⟩, err]]), semiS unitE]]]''', 'the arm of a desugared ? that returns has a further statement', 'C10/C57'),
 (V, "let r := visitExpr env rec sc cx e semi", "let r := visitExpr env rec sc cx e (semi && !cx.hasChild)", 'after an inner attribute the semicolon of a statement is ignored', 'C24/C68'),
 (V, "      vsVisitStmt env rec .dummy sc cx n\n  else walk", "      if n.anyAttr NAME then vsVisitStmt env rec .dummy sc cx n else (cx, n)\n  else walk", 'an attribute without arguments does not enter statements that are not annotated', 'C68'),
 (V, "(r.1, .mk (.sLocal pat) as (r.2 :: els))\n", "(r.1, .mk (.sLocal pat) as (r.2 :: els.map fun e => (childExpr cx e).2))\n", 'the else of a let is treated as a result', 'C69/C04'),
 (V, "  if cx.isDummy then dummyWalk rec cx (.mk (.sLocal pat) as ks)\n", "  if cx.isDummy then dummyWalk rec cx (.mk (.sLocal pat) as (ks.take 1))\n", 'an attribute without arguments drops the else of a let', 'C16/C68'),
 (CE, "  | _, _ => ⟨0, 0⟩\n\nmutual\n/-- `FnVisitor`", "  | .eYield, _ => ⟨0, 1⟩\n  | _, _ => ⟨0, 0⟩\n\nmutual\n/-- `FnVisitor`", 'yields are counted as returns', 'C29/C70'),
 (CE, "      | .eParen, [e] => let r := childExpr cx e; (r.1, .mk .eParen as [r.2])", "      | .eAwait, [e] => let r := childExpr cx e; (r.1, .mk .eAwait as [r.2])\n      | .eParen, [e] => let r := childExpr cx e; (r.1, .mk .eParen as [r.2])", 'the expression before .await is treated as a result', 'C70: .await makes an operand'),
 (CE, "    | .eContinue _, _ => true\n", "    | .eContinue _, _ => true\n    | .eUnary _, [e] => isUnreachable cx e\n", 'an operator applied to diverging code diverges', 'C30/C70: this is not one of the recognised forms'),
 (V, "        | .path => some []\n", "        | .path => none\n", 'an attribute without arguments on an inner let is rejected', 'C68'),
 (V, "    | .mk .eReturn as ks =>\n      let r := cx.replaceBoxed ks", "    | .mk .eYield as ks =>\n      let r := cx.replaceBoxed ks\n      (r.1, .mk .eYield as r.2)\n    | .mk .eReturn as ks =>\n      let r := cx.replaceBoxed ks", 'yields are wrapped', 'C08/C70'),
 (V, "    | .list toks =>\n      let m := cx.makeChild (env.hash n) toks\n      let w := walk (rec vk sc) m.1 n\n", "    | .list toks =>\n      let m := cx.makeChild (env.hash n) toks\n      let w := if n.kind == .eMatch then (m.1, n) else walk (rec vk sc) m.1 n\n", 'attributes inside an annotated match are expanded after it, not before', 'C20/C68'),
 (DE, 'name := s.name, recv := s.recv, params := s.params,', 'name := s.name, recv := s.recv, params := s.params.reverse,', 'the parameters of a forwarded method are declared in reverse order', 'C35/C67: arguments are passed on in order'),
 (DE, 'name := m.sig.name, recv := m.sig.recv, params := m.sig.params,', 'name := m.sig.name, recv := if m.sig.recv == .pin then .mut else m.sig.recv, params := m.sig.params,', 'pinned receivers are declared as &mut self', 'C40/C67'),
 (DE, '(.pinned "x" :: args.map .var)', '(.pinned "x" :: (args.map .var).take 2)', 'a third argument of a pinned method is not passed on', 'C40: every argument is passed (no trait of the table has three, so only the general statement can notice)'),
 (DE, '.call v.2 i.trait method (.pinned', '.call ((d.variants.head?.map (·.2)).getD v.2) i.trait method (.pinned', 'pinned methods of the first variant are called for every variant', 'C35/C40'),
 (DE, 'i.forwarded.map (genForwarded d i) ++ i.manual.map (genManual d i)', 'i.forwarded.map (genForwarded d i) ++ (if i.forwarded.isEmpty then i.manual.map (genManual d i) else [])', 'traits with forwarded methods lose their hand-written ones', 'C67'),
 (DE, 'name := "transpose_ok", recv := .val, params := [],\n    arms := d.variants.map fun v =>', 'name := "transpose_ok", recv := .val, params := [],\n    arms := d.variants.dropLast.map fun v =>', 'transpose_ok misses the last variant', 'C42: total'),
 (DB, 'i.assoc.map fun n => (n, ⟨fst, i.trait, i.args, n⟩)', '(i.assoc.take 1).map fun n => (n, ⟨fst, i.trait, i.args, n⟩)', 'only the first associated type is equated', 'C49: Coroutine has two'),
 (DB, 'if i.static then d.variants.map fun v => .static v.2 else []', 'if i.static then (d.variants.drop 1).map fun v => .static v.2 else []', 'the first variant of an Error enum need not be static', 'C49'),
 (DB, '  | v :: _ => i.assoc.map fun n => (n, ⟨v.2, i.trait, i.args, n⟩)', '  | v :: vs => i.assoc.map fun n => (n, ⟨(vs.getLast?.getD v).2, i.trait, i.args, n⟩)', 'associated types are those of the last variant', 'C49/C50 (the bounds equate them, so the claim could only break syntactically)'),
 (DB, 'ps ++ ["__E"], ps ++ ["__T"]]', 'ps, ps ++ ["__T"]]', 'transpose_ok lacks its error parameter', 'C52'),
 (DB, 'if i.fnLike then (ty :: tys).map fun t => .fn t i.trait', 'if i.fnLike then tys.map fun t => .fn t i.trait', 'the first variant of a Fn enum is not bounded', 'C49'),
 (V, '      vsVisitStmt env rec .dummy sc cx n\n  else walk (rec .dummy sc) cx n', '      vsVisitStmt env rec .dummy sc cx n\n  else match n.kind with\n    | .arm _ => (cx, n)\n    | _ => walk (rec .dummy sc) cx n', 'an attribute without arguments does not enter arms', 'C68/C71: attributes inside arms stay'),
 (V, '      let m := cx.makeChild (env.hash n) toks\n      let w := walk (rec vk sc) m.1 n\n', '      let m := cx.makeChild (env.hash n) toks\n      let w := if n.kind.isBlockLike then (m.1, n) else walk (rec vk sc) m.1 n\n', 'the outer attribute does not visit annotated blocks', 'C20/C55: attributes inside are children of the inner one (C71 remains true)'),
 (CE, "    | .eUnsafe, ks => isUnreachableLast cx ks\n", "    | .eUnsafe, ks => decide (ks.length < 2) && isUnreachableLast cx ks\n", 'unsafe blocks with two or more statements do not count as diverging', 'C72/C27'),
 (CE, "      | .eBlock l, ks => let r := childLast cx ks; (r.1, .mk (.eBlock l) as r.2)\n", "      | .eBlock none, ks => let r := childLast cx ks; (r.1, .mk (.eBlock none) as r.2)\n", 'labelled blocks are not looked through', 'C72'),
 (CE, "      | .eMethodCall m, e :: args =>\n", "      | .eMethodCall m, [e, a, b] => (cx, .mk (.eMethodCall m) as [e, a, b])\n      | .eMethodCall m, e :: args =>\n", 'method calls with two arguments are not looked through', 'C72'),
 (V, "def buildExpr (item e : Node) : Node := exprBlock [item, tailS e]", "def buildExpr (item e : Node) : Node :=\n  match e with\n  | .mk .eParen as [e] => .mk .eParen as [exprBlock [item, tailS e]]\n  | e => exprBlock [item, tailS e]", 'the enum is declared inside of parentheses', 'C72 (harmless otherwise)'),
 (V, "  | e => expandTarget env rec cx e\n\n", "  | .mk .eUnsafe as ks => expandTarget env rec { cx with lastMode := .never } (.mk .eUnsafe as ks)\n  | e => expandTarget env rec cx e\n\n", 'annotated unsafe blocks only have their markers wrapped', 'C72/C27'),
 (CX, "some m => if markers.contains m then", 'some m => if markers.contains m || m == "try" then', 'a marker named try is rejected', 'C58/C21'),
 (CX, ": Bool := mac.isIdent cx.marker\n", ': Bool := mac.isIdent cx.marker || mac.isIdent "mark"\n', 'mark! is always a marker', 'C58'),
 (CE, '["unreachable", "panic"].any', '["unreachable", "panic", "todo"].any', 'todo! counts as diverging', 'C58'),

 # C73, C74
 (CE, "  | s :: t :: ss => let r := childLast cx (t :: ss); (r.1, s :: r.2)\n", "  | .mk (.sLocal p) as ks :: t :: ss => (cx, .mk (.sLocal p) as ks :: t :: ss)\n  | s :: t :: ss => let r := childLast cx (t :: ss); (r.1, s :: r.2)\n", 'a let before the value of a block hides it', 'C73/C72/C27'),
 (CE, "  | s :: t :: ss => let r := childLast cx (t :: ss); (r.1, s :: r.2)\n", "  | .mk (.sMacro p t) as ks :: t' :: ss => childLast cx (t' :: ss)\n  | s :: t :: ss => let r := childLast cx (t :: ss); (r.1, s :: r.2)\n", 'macro statements before the value of a block are dropped', 'C73/C04'),
 (CE, "  | [_] => false\n  | _ :: s :: ss => isUnreachableLast cx (s :: ss)\n", "  | [_] => false\n  | .mk (.sItem _) _ _ :: _ :: _ => true\n  | _ :: s :: ss => isUnreachableLast cx (s :: ss)\n", 'a block with an item counts as diverging', 'C73/C27'),
 (CE, "  match stmts.getLast? with\n", "  match stmts.head? with\n", 'skip looks at the first statement', 'C73/C06'),
 (CE, "  | .eReturn, [] => if !closure", "  | .sLocal _, [_, _] => ⟨0, 1⟩\n  | .eReturn, [] => if !closure", 'let-else is counted as a return', 'C29/C73'),
 (CE, "      | .arm _ => anyEmptyAttr as NESTED || findNestedL ks\n", "      | .arm _ => anyEmptyAttr as NESTED || findNestedL ks\n      | .sLocal (.typed _ _) => true\n", 'typed lets count as #[nested]', 'C14/C73'),
 (V, "    let r := if ss.isEmpty then (cx.error .emptyFn, ss) else childLast cx ss", "    let r := if ss.isEmpty || (ss.length == 3) then (cx.error .emptyFn, ss) else childLast cx ss", 'functions with three statements are rejected as empty', 'C73/C56'),
 (V, "  -- `Stmt::Macro`: the default traversal sees no expression; `Stmt::Item`: not visited.\n", "  | .mk (.sMacro p t) as ks => ({ cx with hasChild := true }, .mk (.sMacro p t) as ks)\n", 'a macro statement counts as an inner attribute', 'C73/C03'),
 (V, "      let sc := if isName then { sc with foreign := true } else sc\n      let cx := if isName then { cx with hasChild := true } else cx\n      vsVisitStmt env rec .visitor sc cx n\n", "      let sc := if isName || (n.kind == .sLocal (.plain \"_\")) then { sc with foreign := true } else sc\n      let cx := if isName then { cx with hasChild := true } else cx\n      vsVisitStmt env rec .visitor sc cx n\n", 'let _ is foreign', 'C58/C15'),
 (CX, "      { ident := enumIdent h, variants := [],", "      { ident := enumIdent h, variants := if h = 0 then [variantIdent 0] else [],", 'a hash of zero starts with a variant', 'C74/C01'),
 (V, "      let m := cx.makeChild (env.hash n) toks\n      let w := walk (rec vk sc) m.1 n\n", "      let m := cx.makeChild (env.hash n) toks\n      let w := if cx.ident == enumIdent (env.hash n) then (m.1.error .badTarget, n) else walk (rec vk sc) m.1 n\n", 'an inner attribute whose enum has the name of the outer one is rejected', 'C74/C58'),
 (CE, "  | .mk (.ePath false p) _ _ => pathEq p [\"std\", \"core\"] [\"option\", \"Option\", \"None\"]\n", "  | .mk (.ePath false p) _ _ => pathEq p [\"std\", \"core\"] [\"option\", \"Option\", \"None\"] || pathEq p [] [\"__Enum0\"]\n", '__Enum0? counts as diverging', 'C30/C58/C74'),

 # C75
 (V, "(cx, .mk k as [.mk .block asb (item :: ss)])", "(cx, .mk k as [.mk .block asb (ss ++ [item])])", 'the enum of a function is declared after the value of the body', 'C75/C03'),
 (V, "    let r := if ss.isEmpty then (cx.error .emptyFn, ss) else childLast cx ss", "    let r := if ss.isEmpty then (cx.error .emptyFn, ss) else if asb.isEmpty then childLast cx ss else (cx, ss)", 'the value of a body with inner attributes is not wrapped', 'C75/C27'),
 (V, "      (r.1, .mk (.eClosure i) as [r.2])\n", "      (r.1, .mk (.eClosure i) [] [r.2])\n", 'the attributes of an annotated closure are lost', 'C75/C04'),
 (V, "| .mk (.implTrait _) _ => .ret (visitFn cx block).return_", "| .mk (.implTrait _) _ => if (visitFn cx block).try_ ≥ 2 then .try_ else .ret (visitFn cx block).return_", 'two ?s in a function returning impl Trait select the ? mode', 'C08 (C75 would hold for more functions)'),
 (V, "      let r := expandTarget env rec cx body\n", "      let r := expandTarget env rec { cx with marker := \"marker\" } body\n", 'closures ignore the name of the marker', 'C75/C12'),
 (V, "    let cx := { cx with mode := retMode cx ty block }", "    let cx := { cx with mode := retMode { cx with marker := \"marker\" } ty block }", 'the ?s of a function are counted for the default marker', 'C75/C11'),

 # C76, C77
 (CE, "  | _ => isUnreachableLast cx stmts\n\n/-- `if !skip", "  | _ => false\n\n/-- `if !skip", 'branches ending in return; are wrapped', 'C76/C06'),
 (CE, "      let r2 := wrapBlock r.1 e.kids\n      (r2.1, .mk .eIf as [c, .mk .block asb r.2, .mk (.eBlock l) e.rawAttrs r2.2])\n", "      let r2 := wrapBlock cx e.kids\n      let r := wrapBlock r2.1 ss\n      (r.1, .mk .eIf as [c, .mk .block asb r.2, .mk (.eBlock l) e.rawAttrs r2.2])\n", 'the else branch gets its variant before the if branch', 'C76/C01'),
 (CE, "    | .mk (.arm p) as [g, b] => let r := cx.nextExpr b; (r.1, .mk (.arm p) as [g, r.2])\n", "", 'arms with a guard are not wrapped', 'C76/C27'),
 (CE, "    | .eIf =>\n      let r2 := visitIf r.1 e\n", "    | .eIf =>\n      let r2 := if anyEmptyAttr e.rawAttrs NEVER then (r.1, e) else visitIf r.1 e\n", 'else if with #[never] is skipped', 'C76/C07'),
 (DX, "    | some deps => pushDeps fs args v deps\n", "    | some deps => if args.length > 2 then v else pushDeps fs args v deps\n", 'supertraits are only added to short lists', 'C77/C31'),
 (DX, "{ o with impls := i :: o.impls, guard := i.pin || o.guard }", "{ o with impls := i :: o.impls, guard := if o.impls.isEmpty then i.pin else o.guard }", 'only the last trait decides about the guard', 'C77/C33'),
 (DX, "    | none, some p => (emit fs d rest).map fun o => { o with derive := p :: o.derive }\n", "    | none, some p => (emit fs d rest).map fun o => { o with derive := o.derive ++ [p] }\n", 'the rest is left to derive in reverse', 'C77/C34'),
 (DX, "  args.foldl (resolveStep fs args) []\n", "  (args.take 20).foldl (resolveStep fs args) []\n", 'only twenty traits are derived', 'C77/C31'),

 # C78
 (V, "    | .ret count => cx.args.isEmpty && cx.variants.isEmpty && decide (count < 2)", "    | .ret count => cx.variants.isEmpty && decide (count < 2)", 'functions with named traits are left as they are if they have no branches', 'C78/C03'),
 (V, "      (r.1, if r.2 then .plain s else .typed s ty)\n", "      (r.1, .plain s)\n", 'with the feature the type of a let is always dropped', 'C78/C04'),
 (TA, "    if TRAITS.contains (trimmed q) && !args.contains q then", "    if TRAITS.contains (trimmed q) then", 'traits that are named are inferred again', 'C78/C46'),

 # C79
 (CX, "    (cx.args ++ cx.traits))) [] []", "    (cx.traits ++ cx.args))) [] []", 'inferred traits come before the named ones', 'C79/C54'),
 (CX, "    (cx.args ++ cx.traits))) [] []", "    (cx.args ++ cx.traits.eraseDups))) [] []", 'traits that are inferred twice are listed once, unlike named ones', 'C79/C46'),
 (V, "    | .ret count => cx.args.isEmpty && cx.variants.isEmpty && decide (count < 2)", "    | .ret count => cx.args.isEmpty && cx.variants.isEmpty && decide (count < 3)", 'functions with two returns are left as they are', 'C79/C54'),
 (V, "    if env.typeAnalysis then (cx.collectImplTrait ty).1 else cx", "    if env.typeAnalysis && cx.args.isEmpty then (cx.collectImplTrait ty).1 else cx", 'nothing is inferred for functions if a trait is named', 'C79/C46'),
 (V, "      (r.1, if r.2 then .plain s else .typed s ty)\n", "      (r.1, if r.2 && cx.args.isEmpty then .plain s else .typed s ty)\n", 'the type of a let is kept if a trait is named', 'C79/C52'),
 (V, "    | .ret count => cx.args.isEmpty && cx.variants.isEmpty && decide (count < 2)", "    | .ret count => cx.args.isEmpty && cx.variants.isEmpty && decide (count < 2)\n    | .try_ => cx.args.isEmpty && cx.variants.isEmpty", 'functions with two ?s may be left as they are too', 'C79/C54'),

 # C80
 (DX, 'i.path != "ty_impls::transpose" || checkFields d', '(i.path != "ty_impls::transpose" || checkFields d) && decide (d.variants.length < 17)', 'enums with seventeen variants are rejected', 'C80/C60'),
 (DX, 'guard := i.pin || o.guard }', 'guard := (i.pin && d.variants.length != 1) || o.guard }', 'no guard for enums with a single variant', 'C80/C36'),
 (DE, '      ⟨v.1, .call v.2 i.trait s.name (.var "x" :: s.params.map .var)⟩ }', '      ⟨v.1, .call v.2 i.trait (if d.variants.length < 9 then s.name else "next") (.var "x" :: s.params.map .var)⟩ }', 'the methods of enums with nine variants forward to another method', 'C80/C39'),
 (DB, '.trait t i.trait i.args (equated i ty)', '.trait t i.trait i.args (if tys.length = 1 then [] else equated i ty)', 'associated types are not equated in enums with two variants', 'C80/C49'),

 # C81
 (DX, 'i.path != "ty_impls::transpose" || checkFields d', 'i.path != "ty_impls::transpose" || (checkFields d && d.variants.all fun v => v.1 != "None")', 'Transpose is rejected if a variant is called None', 'C81/C45'),
 (DE, "    arms := d.variants.map fun v => ⟨v.1, .map (.var \"x\") v.1⟩ }\n\n/-- `transpose_result`", "    arms := d.variants.map fun v => ⟨v.1, if v.1 == \"__Variant9\" then .var \"x\" else .map (.var \"x\") v.1⟩ }\n\n/-- `transpose_result`", 'transpose does not wrap the tenth variant of a generated enum', 'C81/C44'),
 (DB, "    if i.static then d.variants.map fun v => .static v.2 else []", "    if i.static then (d.variants.filter fun v => v.1 != \"Static\").map fun v => .static v.2 else []", "a variant called Static need not be 'static", 'C81/C49'),

 # C82
 (UT, "Bool := a.path.isIdent s", "Bool := (a.path.segs.getLast?.map (·.ident)) == some s", '#[foo::never] counts as #[never]', 'C82/C13'),
 (UT, "Bool := as.any (·.isEmpty s)", "Bool := as.any (·.isEmpty s) && as.length == 1", '#[never] next to another attribute is not found', 'C82/C13'),
 (CX, "exprCall attrs (Path.ofIdents [cx.ident, v]) e)", "exprCall (attrs.drop 1) (Path.ofIdents [cx.ident, v]) e)", 'wrapping a marker drops its first attribute', 'C82/C04'),

 # C83
 (DE, """    arms := d.variants.map fun v =>
      ⟨v.1, .call v.2 i.trait s.name (.var "x" :: s.params.map .var)⟩ }""", """    arms := (d.variants.take 16).map fun v =>
      ⟨v.1, .call v.2 i.trait s.name (.var "x" :: s.params.map .var)⟩ }""", 'only the first sixteen variants are dispatched', 'C83/C39'),
 (DE, """    arms := d.variants.map fun v =>
      ⟨v.1, .call v.2 i.trait s.name (.var "x" :: s.params.map .var)⟩ }""", """    arms := d.variants.map fun v =>
      ⟨v.1, .call v.2 i.trait s.name (.var "x" :: s.params.reverse.map .var)⟩ }""", 'the arguments are passed on in reverse', 'C83/C39'),

 # C84
 (DB, "  traitBounds i (d.variants.map (·.2)) ++", "  traitBounds i ((d.variants.map (·.2)).filter (·.length == 1)) ++", 'payload types with arguments, such as enums, are not bounded', 'C84/C49'),

 # C85
 (DB, "if o.guard then [(unpinImpl.trait, bounds d unpinImpl)]", "if o.guard then [(unpinImpl.trait, bounds { d with variants := d.variants.take 1 } unpinImpl)]", 'Unpin only requires the first payload to be Unpin', 'C85/C53'),
]
