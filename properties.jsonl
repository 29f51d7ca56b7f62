{"id": "C01", "title": "Each declared variant is constructed exactly once", "statement": "When #[auto_enum] succeeds, the generated code constructs every variant of every generated enum exactly once, and constructs no variant that is not declared: for each enum name and index, the expansion adds as many constructor calls as it adds declarations of that variant. In particular each block that declares a generated enum constructs each of its variants exactly once, even if other blocks declare enums of the same name.", "quantifier": "every attributed statement/expression/function, any nesting of attributes, branches, loops, closures and macros, any hash function for names", "why_tests_cant": "the number and placement of wrapping sites depends on arbitrary user syntax trees and on the interaction of several traversals over the same tree", "anchors": ["src/auto_enum/context.rs:Builder::next_expr", "src/auto_enum/context.rs:Context::build", "src/auto_enum/expr.rs:child_expr", "src/auto_enum/visitor.rs:Visitor"]}
{"id": "C02", "title": "Generated enums have at least two variants, one type parameter and one derive request each", "statement": "Every enum emitted by a successful expansion has n>=2 variants named __Variant0..__Variant(n-1), one type parameter per variant, and a derive request listing exactly the attribute's traits followed by the inferred ones.", "quantifier": "every successful expansion", "why_tests_cant": "unbounded number of branches", "anchors": ["src/auto_enum/context.rs:Context::build", "src/auto_enum/context.rs:Builder::build"]}
{"id": "C03", "title": "Fewer than two branches is rejected, two or more are accepted", "statement": "An attribute with arguments whose own scope yields exactly one wrapping site, or none and no nested auto_enum attribute, is rejected with the `required two or more` error; otherwise no such error is reported for it.", "quantifier": "every input on which no other error occurs", "why_tests_cant": "needs counting over arbitrary trees", "anchors": ["src/auto_enum/context.rs:Context::build"]}
{"id": "C04", "title": "Expansion only inserts wrappers: no user code is dropped, duplicated or reordered", "statement": "The output is obtained from the input only by: wrapping an expression in a generated constructor, wrapping a branch block's contents, supplying `()` to a valueless break/return, replacing marker!(e) by a wrapped e, desugaring `e?`, deleting auto_enum/nested/never attributes, and inserting the generated enum. Everything else is identical.", "quantifier": "every successful expansion of every input tree", "why_tests_cant": "must hold at every position of every tree", "anchors": ["src/auto_enum/mod.rs:attribute", "src/auto_enum/visitor.rs:Visitor", "src/auto_enum/expr.rs:child_expr"]}
{"id": "C05", "title": "match: exactly the value-producing arms are wrapped", "statement": "For a match in result position, each arm is wrapped exactly once iff it is not annotated #[never]/#[nested], does not syntactically diverge, and contains no #[nested]; wrapped arms are numbered consecutively in source order; every other arm, every guard and the scrutinee is unchanged.", "quantifier": "every match expression with any number of arms", "why_tests_cant": "any number and shape of arms", "anchors": ["src/auto_enum/expr.rs:visit_last_expr_match"]}
{"id": "C06", "title": "if/else chains: every branch is treated, a missing else is an error", "statement": "For an if chain in result position every branch block (then, each else-if, else) is either wrapped as a whole block or skipped by the same rule as match arms; an error is reported iff the chain has no final else.", "quantifier": "chains of any length", "why_tests_cant": "unbounded chain length", "anchors": ["src/auto_enum/expr.rs:visit_last_expr_if"]}
{"id": "C07", "title": "loop: exactly the breaks that leave that loop are wrapped", "statement": "For a loop in result position, `break` expressions are wrapped iff they target that loop (Rust's label resolution), are not marker calls and are not under #[never]; breaks of inner loops, closures, async blocks and nested items are unchanged.", "quantifier": "any loop body, any nesting of loops and labels", "why_tests_cant": "label resolution must be right for every nesting", "anchors": ["src/auto_enum/expr.rs:visit_last_expr_loop"]}
{"id": "C08", "title": "return: every return of the attributed function is wrapped", "statement": "In a function returning impl Trait (or an attributed closure), after expansion every `return` that belongs to the function, is not annotated #[never] and is not a marker call carries a generated constructor of that function's enum.", "quantifier": "every function body", "why_tests_cant": "a single missed return at any depth is a type error in user code", "anchors": ["src/auto_enum/visitor.rs:Visitor::visit_return", "src/auto_enum/mod.rs:expand_parent_item_fn"]}
{"id": "C09", "title": "return and ? of inner scopes are left alone", "statement": "A `return` or `?` that belongs to an inner closure, async block, try block (for ?) or nested item is never rewritten by the outer attribute.", "quantifier": "every function body with any nesting of inner scopes", "why_tests_cant": "scope tracking must be right at every depth", "anchors": ["src/auto_enum/visitor.rs:Scope::check_expr", "src/auto_enum/visitor.rs:Visitor::visit_try"]}
{"id": "C10", "title": "? operator: exact desugaring", "statement": "In `?` mode every `e?` of the function that is not skipped becomes `match e { Ok(val) => val, Err(err) => return Err(Enum::V(err)) }` with a fresh variant, and no tail expression or return is wrapped.", "quantifier": "every function body", "why_tests_cant": "arbitrary nesting of ? inside ?", "anchors": ["src/auto_enum/visitor.rs:Visitor::visit_try", "src/auto_enum/context.rs:Context::visit_last"]}
{"id": "C11", "title": "? mode is chosen exactly when there are two or more ? to wrap", "statement": "For a function returning Result<T, impl Trait> (or an attributed closure) the ? desugaring is used iff the body has at least two `?` that the desugaring would rewrite.", "quantifier": "every function body and return type", "why_tests_cant": "count and rewrite are two separate traversals that must agree on all trees", "anchors": ["src/auto_enum/mod.rs:expand_parent_item_fn", "src/auto_enum/mod.rs:expand_expr", "src/auto_enum/visitor.rs:visit_fn"]}
{"id": "C12", "title": "marker macros: exactly the current scope's markers are replaced, once", "statement": "Every `<marker>!(e)` expression of the attribute's own scope becomes one constructor call on e; macros with other names are untouched; branches, breaks and returns whose value is a marker call are not wrapped a second time.", "quantifier": "every tree and every marker name", "why_tests_cant": "any position of any tree", "anchors": ["src/auto_enum/visitor.rs:Visitor::visit_marker_macro", "src/auto_enum/context.rs:Context::is_marker_macro"]}
{"id": "C13", "title": "#[never] suppresses wrapping", "statement": "An arm, branch tail, break or return annotated #[never] is never given a constructor by the branch/break/return analysis.", "quantifier": "every tree", "why_tests_cant": "any position of any tree", "anchors": ["src/auto_enum/expr.rs:is_unreachable", "src/auto_enum/visitor.rs:Visitor::find_remove_attrs"]}
{"id": "C14", "title": "#[nested] replaces wrapping of a branch by wrapping inside it", "statement": "A branch containing #[nested] is not wrapped as a whole; the annotated inner expression's own branches are wrapped instead, by the same rules.", "quantifier": "every nesting depth", "why_tests_cant": "unbounded nesting depth", "anchors": ["src/auto_enum/visitor.rs:find_nested", "src/auto_enum/visitor.rs:Visitor::visit_nested"]}
{"id": "C15", "title": "Helper attributes do not survive", "statement": "After a successful non-dummy expansion no auto_enum, nested or never attribute remains on any expression, arm or let statement the expansion traverses, provided no node carries the same helper attribute twice.", "quantifier": "every input tree", "why_tests_cant": "any position of any tree", "anchors": ["src/auto_enum/visitor.rs:Visitor::find_remove_attrs", "src/utils.rs:Attrs::find_remove_attr"]}
{"id": "C16", "title": "An attribute without arguments is the identity", "statement": "`#[auto_enum]` with no trait arguments, for which no trait is inferred, and no inner auto_enum attribute returns its input unchanged and reports no error.", "quantifier": "every input tree without inner auto_enum attributes, with type_analysis on or off", "why_tests_cant": "any tree", "anchors": ["src/auto_enum/visitor.rs:Dummy", "src/auto_enum/mod.rs:expand_parent_expr"]}
{"id": "C17", "title": "Errors are never lost and never mixed with output", "statement": "If any error is recorded in the attribute or any nested attribute the result consists of compile errors only, containing every recorded error; if no error is recorded the result is the expansion.", "quantifier": "every input", "why_tests_cant": "errors may be raised at any node of any nested context", "anchors": ["src/auto_enum/context.rs:Context::error", "src/auto_enum/context.rs:Context::join_child", "src/auto_enum/context.rs:Context::check"]}
{"id": "C18", "title": "The macro never panics", "statement": "No internal assertion, unwrap or unreachable! of the expansion (wrong_if, context bookkeeping assertions) fires on any syntactically valid input.", "quantifier": "every syntactically valid input tree and argument list", "why_tests_cant": "panics depend on bookkeeping invariants across nested contexts", "anchors": ["src/auto_enum/expr.rs:visit_last_expr_if", "src/auto_enum/context.rs:Context::make_child", "src/auto_enum/context.rs:Context::join_child", "src/auto_enum/context.rs:Context::dummy"]}
{"id": "C19", "title": "Expansion terminates", "statement": "Expansion of any input terminates although nested contexts re-traverse already transformed trees, and its outcome does not depend on how much recursion it was allowed once that was enough.", "quantifier": "every input tree", "why_tests_cant": "non-structural recursion: the visited tree grows while it is being visited", "anchors": ["src/auto_enum/visitor.rs:VisitStmt::visit_expr", "src/auto_enum/visitor.rs:Visitor::visit_expr"]}
{"id": "C20", "title": "Nested auto_enum regions are owned by the nested attribute", "statement": "The outer attribute changes the region of an inner auto_enum attribute only by wrapping the returns, the ? operators and the values of breaks that leave the outer function or a loop of the outer attribute, and by replacing its own custom marker. Apart from that the region is expanded exactly as the inner attribute alone would expand it: branch analysis, default markers, #[nested] and #[never] there belong to the inner attribute.", "quantifier": "every accepted input and every outermost region in it (attributes inside a region: the expansion of that region, again as if each stood alone); an attributed closure does not carry a second auto_enum attribute itself", "why_tests_cant": "any shape of code may be nested in any other, and the comparison is with another run of the macro", "anchors": ["src/auto_enum/visitor.rs:Visitor::visit_expr", "src/auto_enum/expr.rs:is_unreachable"]}
{"id": "C21", "title": "Custom marker names are distinct from those of enclosing attributes", "statement": "An inner attribute whose `marker = name` equals a marker of an enclosing attribute is rejected.", "quantifier": "every nesting depth of attributes", "why_tests_cant": "any depth", "anchors": ["src/auto_enum/context.rs:Context::new", "src/auto_enum/context.rs:Context::make_child"]}
{"id": "C22", "title": "Argument list parsing", "statement": "Parsing the printed form of any list of traits with an optional marker entry at any position yields exactly those traits in order and that marker; a second marker entry is rejected; a trailing comma is accepted and missing commas rejected.", "quantifier": "every list of traits and every position of the marker entry", "why_tests_cant": "unbounded argument lists", "anchors": ["src/auto_enum/context.rs:Args::parse"]}
{"id": "C23", "title": "Nested items and foreign macros are copied verbatim", "statement": "Items inside a body and the token contents of macros other than markers are never modified.", "quantifier": "every tree", "why_tests_cant": "any position of any tree", "anchors": ["src/auto_enum/visitor.rs:Visitor::visit_item_mut", "src/auto_enum/expr.rs:LoopVisitor::visit_item_mut"]}
{"id": "C24", "title": "On a statement with a trailing semicolon only markers are wrapped", "statement": "When the attributed statement ends with `;` no branch, break or return is wrapped: every constructor comes from a marker call.", "quantifier": "every statement", "why_tests_cant": "any tree", "anchors": ["src/auto_enum/mod.rs:expand_parent_expr", "src/auto_enum/context.rs:Context::visit_last"]}
{"id": "C25", "title": "Branches skipped as diverging really produce no value", "statement": "An expression treated as diverging (without relying on #[never], markers or inner auto_enum) cannot complete normally.", "quantifier": "every expression and every run of it", "why_tests_cant": "ranges over all executions of all expressions", "anchors": ["src/auto_enum/expr.rs:is_unreachable", "src/auto_enum/expr.rs:is_unreachable_stmt"]}
{"id": "C26", "title": "Every use of a generated enum is in the scope of its declaration", "statement": "Each generated constructor call occurs inside the block in which the enum it refers to is declared.", "quantifier": "every successful expansion", "why_tests_cant": "any tree and any nesting of attributes", "anchors": ["src/auto_enum/mod.rs:build_expr", "src/auto_enum/mod.rs:expand_parent_item_fn"]}
{"id": "C27", "title": "Result positions of supported expressions always yield the enum", "statement": "For a supported result expression (match, if/else, loop, through blocks, unsafe, parentheses) with no skipped-but-completing branches, every value the expanded expression can produce is a generated constructor application.", "quantifier": "every supported expression and every run of it", "why_tests_cant": "ranges over all executions of all expressions", "anchors": ["src/auto_enum/expr.rs:child_expr"]}
{"id": "C28", "title": "Wrapping preserves behaviour", "statement": "Under an operational semantics of control flow the expanded expression has exactly the outcomes of the original one, with result values wrapped; in the mode that desugars `?`, a `?` that fails with an error returns that error wrapped.", "quantifier": "every supported expression, every run", "why_tests_cant": "ranges over all executions", "anchors": ["src/auto_enum/expr.rs:child_expr", "src/auto_enum/visitor.rs:Visitor::visit_return", "src/auto_enum/visitor.rs:Visitor::visit_try"]}
{"id": "C29", "title": "The return count equals the number of returns wrapped", "statement": "The number of `return` expressions counted before deciding the mode equals the number of constructors the return rewriting creates on trees without inner attributes and annotations.", "quantifier": "every function body", "why_tests_cant": "two traversals must agree on all trees", "anchors": ["src/auto_enum/visitor.rs:visit_fn", "src/auto_enum/visitor.rs:Visitor::visit_return"]}
{"id": "C30", "title": "Diverging macro and path recognition", "statement": "A macro or constructor path is recognised iff it is the bare last name or the full std::/core:: path; nothing else is.", "quantifier": "every path", "why_tests_cant": "any path length and spelling", "anchors": ["src/utils.rs:path_eq", "src/auto_enum/expr.rs:is_unreachable_macro"]}
{"id": "C31", "title": "enum_derive adds missing dependencies", "statement": "For every requested trait, each trait it depends on is implemented (directly, by an alias, or by derive).", "quantifier": "every list of requested traits and every feature set", "why_tests_cant": "arbitrary lists and orders", "anchors": ["src/enum_derive.rs:get_trait_deps", "src/enum_derive.rs:expand"]}
{"id": "C32", "title": "enum_derive implements each trait once", "statement": "If no trait is requested twice, no trait is implemented twice.", "quantifier": "every list of requested traits", "why_tests_cant": "arbitrary lists and orders", "anchors": ["src/enum_derive.rs:expand", "src/enum_derive.rs:exists_alias"]}
{"id": "C33", "title": "Aliases name the same trait and are implemented once", "statement": "Requesting a trait under both of its spellings produces the same implementations as requesting it once.", "quantifier": "every list, order and position", "why_tests_cant": "arbitrary lists and orders", "anchors": ["src/enum_derive.rs:exists_alias"]}
{"id": "C34", "title": "Unsupported traits go to #[derive], supported traits never do", "statement": "The traits passed to #[derive] are exactly the requested ones enum_derive does not implement under the enabled features, in order, exactly as written; no supported trait is passed to #[derive].", "quantifier": "every list and every feature set", "why_tests_cant": "arbitrary lists and feature sets", "anchors": ["src/enum_derive.rs:expand", "src/enum_derive.rs:get_derive"]}
{"id": "C35", "title": "Trait names select one implementation", "statement": "No trait name is claimed by two implementations, so the order of the lookup table is irrelevant, under every feature set.", "quantifier": "every string and every feature set", "why_tests_cant": "all strings", "anchors": ["src/enum_derive.rs:get_derive"]}
{"id": "C36", "title": "Pin safety guard", "statement": "The conditional Unpin impl and the no-Drop guard are emitted iff some implemented trait projects a Pin<&mut Self>.", "quantifier": "every list of traits and feature set", "why_tests_cant": "arbitrary lists", "anchors": ["src/enum_derive.rs:expand", "src/enum_derive.rs:DeriveContext::needs_pin_projection"]}
{"id": "C37", "title": "Feature gating", "statement": "Disabling a cargo feature never changes the handling of traits outside that feature; a trait whose feature is off is passed to #[derive].", "quantifier": "every list and every pair of feature sets", "why_tests_cant": "all feature combinations", "anchors": ["src/enum_derive.rs:get_derive", "src/enum_derive.rs:get_trait_deps"]}
{"id": "C38", "title": "enum_derive argument parsing", "statement": "Parsing keeps the traits in order, ignores whitespace in paths and accepts a trailing comma.", "quantifier": "every argument list", "why_tests_cant": "unbounded lists", "anchors": ["src/enum_derive.rs:Args::parse"]}
{"id": "C39", "title": "Delegation: any call history on the enum equals the same history on the wrapped value", "statement": "For every trait whose methods take &self/&mut self/Pin<&mut Self>, any finite sequence of method calls on Enum::V(x) returns the same results as on x, leaving Enum::V(x') with x' the state x reaches.", "quantifier": "every enum, variant, payload, trait and call history", "why_tests_cant": "all call histories", "anchors": ["src/derive/core/iter.rs:iterator", "src/derive/core/future.rs", "src/derive/std/io.rs"]}
{"id": "C40", "title": "The variant never changes", "statement": "No derived method changes which variant an enum value is.", "quantifier": "every enum value and call history", "why_tests_cant": "all call histories", "anchors": ["src/derive"]}
{"id": "C41", "title": "Iterator adapters agree with the wrapped iterator", "statement": "Consuming and searching methods (count, last, nth, fold, all, any, find, find_map, position, collect, partition) give the wrapped iterator's result; methods not forwarded, computed from next, agree for any iterator whose own override agrees with next.", "quantifier": "every iterator and every consumer", "why_tests_cant": "all iterators and call histories", "anchors": ["src/derive/core/iter.rs:iterator"]}
{"id": "C42", "title": "Pinned delegation never moves the payload", "statement": "Polling a pinned enum polls the payload in place: its address and variant stay fixed between polls until completion.", "quantifier": "every poll history", "why_tests_cant": "all histories", "anchors": ["src/derive/core/future.rs", "src/derive/external/futures03.rs"]}
{"id": "C43", "title": "Error::source of the enum is the wrapped error", "statement": "source() returns the wrapped error itself, so the source chain of the enum is the wrapped error followed by its own chain.", "quantifier": "every error chain", "why_tests_cant": "chains of any length", "anchors": ["src/derive/std/error.rs"]}
{"id": "C44", "title": "Transpose laws", "statement": "transpose, transpose_ok and transpose_err move the enum inside the Option/Result and keep variant and payload; None/Err/Ok cases pass through as std's transpose does.", "quantifier": "every enum value", "why_tests_cant": "all payloads and variants", "anchors": ["src/derive/ty_impls/transpose.rs"]}
{"id": "C45", "title": "Transpose is rejected unless fields are exactly the type parameters", "statement": "Transpose is derived iff the enum's type parameter list is exactly the list of its field types, in order and without bounds.", "quantifier": "every enum shape", "why_tests_cant": "all generics lists", "anchors": ["src/derive/ty_impls/transpose.rs:check_fields"]}
{"id": "C46", "title": "type_analysis collects exactly the supported traits of impl Trait types", "statement": "The traits added by type analysis are exactly the supported traits named in impl Trait types of the annotation that are not already arguments, in traversal order.", "quantifier": "every type", "why_tests_cant": "all types", "anchors": ["src/auto_enum/type_analysis.rs:collect_impl_trait"]}
{"id": "C47", "title": "Every trait inferred by type analysis is implementable", "statement": "With all features enabled each trait name type analysis can add is either implemented by enum_derive or is a std derive macro.", "quantifier": "every inferable trait name", "why_tests_cant": "finite table but tied to another table", "anchors": ["src/auto_enum/type_analysis.rs:TRAITS", "src/enum_derive.rs:get_derive"]}
{"id": "C48", "title": "Mixed error reporting of nested attributes", "statement": "An error in the region of an inner attribute does not hide the inner attribute's own `two or more` error, and neither hides errors already recorded.", "quantifier": "every input", "why_tests_cant": "ordering of errors across contexts", "anchors": ["src/auto_enum/visitor.rs:VisitStmt::visit_expr", "src/auto_enum/context.rs:Context::join_child"]}
{"id": "C49", "title": "An enum implements a derived trait exactly if its payload types do, alike", "statement": "An implementation generated by enum_derive is of the requested trait and applies to an instance of the enum iff the types of all variants implement that trait with the same type arguments and the same associated types, including those of supertraits (Error also needs the types to be 'static).", "quantifier": "every enum, every list of traits and feature set, every assignment of types and implementations to the fields", "why_tests_cant": "which types implement what is open-ended; tests fix a few payload types", "anchors": ["src/derive/core/iter.rs", "src/derive/core/ops.rs", "src/derive/std/error.rs", "src/enum_derive.rs:expand"]}
{"id": "C50", "title": "The associated types of the enum are those of every payload", "statement": "A generated implementation defines exactly the associated types its trait declares, and whenever it applies each of them equals the associated type of the type of every variant.", "quantifier": "every enum, list of traits, feature set and assignment of types", "why_tests_cant": "as C49", "anchors": ["src/derive/core/iter.rs:iterator", "src/derive/core/ops.rs", "src/enum_derive.rs:expand"]}
{"id": "C51", "title": "Supertrait implementations apply whenever the subtrait's does", "statement": "If a trait and one of its supertraits are both implemented by enum_derive, then for every instance of the enum to which the implementation of the trait applies the implementation of the supertrait applies too.", "quantifier": "every enum, list of traits, feature set and assignment of types closed under supertraits", "why_tests_cant": "as C49", "anchors": ["src/enum_derive.rs:get_trait_deps", "src/derive/core/iter.rs", "src/derive/core/ops.rs"]}
{"id": "C52", "title": "No generic parameter is declared twice", "statement": "If no type parameter of the enum begins with two underscores, no generated implementation declares a generic parameter twice, and no method one that its implementation declares; for the enums generated by auto_enum this holds for every list of traits.", "quantifier": "every enum, list of traits and feature set; every expansion of auto_enum", "why_tests_cant": "names of user parameters are unbounded", "anchors": ["src/derive/core/ops.rs:coroutine", "src/derive/ty_impls/transpose.rs", "src/auto_enum/context.rs:Builder"]}
{"id": "C53", "title": "Enums with pinned methods are Unpin exactly if all payloads are", "statement": "If a method with receiver Pin<&mut Self> is generated, the enum gets exactly one implementation of Unpin, which applies iff the types of all variants are Unpin.", "quantifier": "every enum, list of traits, feature set and assignment of types", "why_tests_cant": "soundness of the pin projection depends on all payload types", "anchors": ["src/enum_derive.rs:expand"]}
{"id": "C54", "title": "Inferred traits act like named ones", "statement": "With type_analysis, an attribute without trait arguments on a function or an annotated let statement for whose impl Trait types traits are inferred produces, if it succeeds, the output it would produce if these traits were its arguments; only a function with fewer than two expressions to wrap is left unchanged instead of being rejected.", "quantifier": "every ordinary function or let statement without inner attributes, every list of marker arguments and annotation", "why_tests_cant": "any body and any type", "anchors": ["src/auto_enum/mod.rs:expand_parent_local", "src/auto_enum/mod.rs:expand_parent_item_fn", "src/auto_enum/mod.rs:expand_expr", "src/auto_enum/type_analysis.rs:collect_impl_trait"]}
{"id": "C55", "title": "Inner attributes do not change what happens outside of their inputs", "statement": "If an attribute is accepted on an input with inner #[auto_enum] attributes, the output is, outside of the expressions and let statements annotated with inner attributes, exactly what the attribute makes of the input when these are taken to be opaque expressions without a value: the same branches, breaks, returns, `?` and markers are wrapped, helper attributes removed, and nothing else changed. The enum has two or more variants, or is missing, which happens only if there is an inner attribute.", "quantifier": "every accepted input, inner attributes at any place and depth, with any contents, whose code outside of them is ordinary (as in C03)", "why_tests_cant": "the position, number, depth and contents of inner attributes are unbounded", "anchors": ["src/auto_enum/visitor.rs:Visitor", "src/auto_enum/expr.rs:child_expr", "src/auto_enum/context.rs:make_child", "src/auto_enum/context.rs:join_child"]}
{"id": "C56", "title": "The errors reported are determined by the input", "statement": "For an attribute with trait arguments, the errors reported are exactly these, in this order. If the branches to be wrapped are those of an `if` without a final `else`: only that. Otherwise those about the first expression, match arm or let statement, in source order and inner ones before outer ones, that has #[rec], #[never] or #[nested] with arguments, #[nested] on an `if` without a final `else`, or is a marker whose argument is no expression; then those about #[never] and #[rec] of the expressions, arms and let statements around it, where the attributes of a marker that is left in place are not looked at but those of its argument are; an erroneous #[nested] keeps what is inside of it from being looked at. If there are none of these, and fewer than two expressions are to be wrapped, only that. Otherwise the input is accepted.", "quantifier": "every ordinary input (as in C03) without inner attributes, with any number of faults at any places", "why_tests_cant": "the number, places and combinations of faults are unbounded", "anchors": ["src/auto_enum/expr.rs:visit_last_expr_if", "src/auto_enum/visitor.rs:find_remove_attrs", "src/auto_enum/visitor.rs:visit_marker_macro", "src/auto_enum/visitor.rs:visit_expr_mut", "src/auto_enum/context.rs:Context::build", "src/error.rs"]}
{"id": "C57", "title": "Branches of different types get the type of the enum", "statement": "If the attributed code is well typed except that the values of its result branches (and of the breaks and returns that are wrapped) may each have a type of their own, then the expansion is well typed: the whole has the type of the generated enum and every variant has a single payload type.", "quantifier": "every accepted input, every set of typing rules for the code that is not control flow, every surrounding code", "why_tests_cant": "the types involved, and the combinations of control flow that lead to a result, are unbounded; tests compile a few", "anchors": ["src/auto_enum/expr.rs:child_expr", "src/auto_enum/expr.rs:is_unreachable", "src/auto_enum/visitor.rs:Visitor::visit_return", "src/auto_enum/expr.rs:visit_last_expr_loop", "src/auto_enum/context.rs:Builder"]}
{"id": "C58", "title": "Names and literals do not influence the expansion", "statement": "Replacing text that means nothing to the macro (literals, patterns, operators, names of functions, methods and fields, types of casts, the tokens of macro calls and of items, identifiers other than the paths None and Err with std, core, option, Option, result and Result, labels, and the names of macros and of markers other than marker, unreachable, panic and compile_error, as long as different labels and different macros stay different) changes the outcome only by the same replacements: the same errors are reported, or the same expansion is produced with the text replaced.", "quantifier": "every input, every arguments of the attribute, every replacement, including those that make different literals, patterns or names equal", "why_tests_cant": "a test fixes the spelling; that no other spelling is treated differently is a statement about all of them", "anchors": ["src/auto_enum/mod.rs:attribute", "src/auto_enum/expr.rs:is_unreachable", "src/auto_enum/expr.rs:visit_last_expr_loop", "src/auto_enum/visitor.rs:Visitor", "src/utils.rs:path_eq"]}
{"id": "C59", "title": "Which traits are requested does not influence the rewriting", "statement": "Two attributes that both request at least one trait and name the same marker (or none) treat every input alike: both accept it, or both reject it with the same errors. The expansions are identical except for the list of traits of the generated enum and, with the feature type_analysis, for whether the type of an annotated let statement is kept.", "quantifier": "every input, every two argument lists with at least one trait and the same marker", "why_tests_cant": "there are infinitely many trait paths, known and unknown; a test picks a few pairs", "anchors": ["src/auto_enum/mod.rs:attribute", "src/auto_enum/mod.rs:expand_parent_local", "src/auto_enum/mod.rs:expand_parent_item_fn", "src/auto_enum/context.rs:Context::new", "src/auto_enum/context.rs:Builder::build", "src/auto_enum/type_analysis.rs:collect_impl_trait"]}
{"id": "C60", "title": "Every generated enum is accepted by enum_derive, and every requested trait is provided", "statement": "Whatever features are enabled, the #[enum_derive(..)] attribute that an expansion of #[auto_enum] puts on a generated enum succeeds, with Transpose as well; it implements every requested or inferred trait that the crate supports and passes exactly the others on to #[derive].", "quantifier": "every accepted input, with inner attributes too, every generated enum of the expansion, every set of features", "why_tests_cant": "it is about the composition of both macros for all inputs, trait lists and feature combinations", "anchors": ["src/auto_enum/context.rs:Builder::build", "src/enum_derive.rs:expand", "src/derive/ty_impls/transpose.rs:derive"]}
{"id": "C61", "title": "The resulting enum behaves like the value it wraps", "statement": "If the original code ends with a value, or returns one from the attributed function or closure, then the expansion ends in the same state with a variant of the generated enum around that value. The enum provides the requested traits, and any sequence of calls of borrowing methods of the generated implementations has the results and the effects of the same calls on the wrapped value.", "quantifier": "every accepted input without inner attributes whose control flow is consistent, every machine for the remaining code, every state, every history of calls, every set of features", "why_tests_cant": "tests run a few expansions with a few calls; this covers every program, run and call history", "anchors": ["src/auto_enum/visitor.rs:Visitor", "src/auto_enum/expr.rs:child_expr", "src/auto_enum/context.rs:Builder::build", "src/enum_derive.rs:expand"]}
{"id": "C62", "title": "The expansion is well typed and its enum implements a trait exactly if all branches do", "statement": "If the original code is well typed except that its branches have different types, then the expansion has the type of the generated enum, and the generated implementation of a requested trait applies to that type exactly if the types of all branches implement the trait with the same associated types (and are 'static in case of Error).", "quantifier": "every accepted input without inner attributes, every typing of the remaining code, every interpretation of traits", "why_tests_cant": "typing rules and types are arbitrary; trybuild tests check a handful of programs", "anchors": ["src/auto_enum/visitor.rs:Visitor", "src/auto_enum/expr.rs:child_expr", "src/auto_enum/context.rs:Builder::build", "src/enum_derive.rs:expand", "src/derive"]}
{"id": "C63", "title": "More traits and more features never take an implementation away", "statement": "If traits are added to an #[enum_derive(..)] attribute, or features of the crate are enabled, every implementation that was generated still is, the protection against Drop and Unpin implementations stays, and every trait that was passed to #[derive] still is or is now implemented. Leaving traits out or disabling features never makes the attribute fail.", "quantifier": "every enum, every two lists of traits one of which contains the other, every two feature sets one of which contains the other", "why_tests_cant": "pairs of trait lists and feature sets; tests run with one feature set at a time", "anchors": ["src/enum_derive.rs:expand", "src/enum_derive.rs:get_derive", "src/enum_derive.rs:get_trait_deps"]}
{"id": "C64", "title": "The order of the requested traits does not matter", "statement": "Requesting the same traits in another order gives the same implementations up to their order, the same derived traits up to their order, the same protection against Drop and Unpin implementations, and fails for the same enums.", "quantifier": "every enum, every list of traits and every permutation of it, every set of features", "why_tests_cant": "all permutations of all lists", "anchors": ["src/enum_derive.rs:expand", "src/enum_derive.rs:exists_alias", "src/enum_derive.rs:get_trait_deps"]}
{"id": "C65", "title": "Seen through the constructors, the expansion does what the source does", "statement": "If the rest of a program cannot tell a value from the same value in a variant of a generated enum, then it cannot tell the expansion from the source: started in states that look the same, neither of them ends, or both end in the same way (normally, by break, continue, return or panic) with values and states that look the same. A marker call m!(e) of the source counts as e. If the expansion desugars `?`, this holds for code without try blocks and for programs that cannot tell a failing `?` from a return.", "quantifier": "every input accepted by #[auto_enum] (with markers, #[nested], inner attributes, closures, labelled blocks, ...), every interpretation of everything but control flow, every observer that does not look at variants, all states", "why_tests_cant": "quantifies over all programs, interpretations and observers", "anchors": ["src/auto_enum/mod.rs:expand_expr", "src/auto_enum/expr.rs:child_expr", "src/auto_enum/visitor.rs:Visitor", "src/auto_enum/context.rs:next_expr"]}
{"id": "C66", "title": "An expansion is well typed only if the source is", "statement": "If the expansion of the attributed code has the type of the generated enum, then the attributed code was well typed, apart from the types of its result branches (and of the breaks and returns that are wrapped and the arguments of markers): the wrapping never hides a type error of the source. Together with C57, the expansion is well typed exactly if the source is.", "quantifier": "every accepted input, every set of typing rules for the code that is not control flow, every choice of payload types, every surrounding code", "why_tests_cant": "quantifies over all programs and typing rules; tests compile a few well-typed programs and never the ill-typed ones", "anchors": ["src/auto_enum/expr.rs:child_expr", "src/auto_enum/expr.rs:is_unreachable", "src/auto_enum/visitor.rs:Visitor::visit_return", "src/auto_enum/expr.rs:visit_last_expr_loop"]}
{"id": "C67", "title": "Generated implementations are complete and have only methods of the trait", "statement": "An implementation generated by #[enum_derive] has no methods other than those that the requested trait declares, each at most once and with the declared receiver, number of parameters and number of type parameters; it has every method for which the trait has no default implementation; and every method has exactly one match arm for every variant of the enum.", "quantifier": "every enum, every list of requested traits, every feature set, every generated implementation", "why_tests_cant": "tests compile the implementations of some traits with some features; each method of each trait, some of them behind unstable or optional features, would need its own test", "anchors": ["src/enum_derive.rs:get_derive", "src/derive/core/iter.rs", "src/derive/std/io.rs", "src/derive/external/futures03.rs", "src/derive/external/tokio1.rs"]}
{"id": "C68", "title": "An attribute without arguments expands the attributes in its input in place", "statement": "If #[auto_enum] without trait arguments is accepted and no trait is inferred for it, the output is the input in which every expression and every let statement with an inner #[auto_enum] attribute is replaced by what that attribute makes of it on its own, from the inside to the outside. Everything else is unchanged, including helper attributes and markers outside of the inner inputs. Without custom markers, the input is accepted if and only if the inner attributes on their own are, one after the other.", "quantifier": "every input with any number of inner attributes, nested to any depth, every hash function, with and without type analysis", "why_tests_cant": "quantifies over all inputs and all ways to nest attributes; tests expand a few of them and do not compare with the expansion of the inner attribute on its own", "anchors": ["src/auto_enum/mod.rs:expand_parent_item_fn", "src/auto_enum/context.rs:Context::dummy", "src/auto_enum/visitor.rs:Dummy", "src/auto_enum/visitor.rs:VisitStmt"]}
{"id": "C69", "title": "On a let the attribute acts as on the initial value", "statement": "If no trait is inferred from its type annotation, a let statement with #[auto_enum(traits)] is replaced by the same let with the output of #[auto_enum(traits)] on its initial value, and it is rejected with the errors reported there. The else block of a let-else is left alone, including inner attributes and markers in it. The same equality holds for a statement consisting of an expression without semicolon, and, for an attribute without traits, for a let without else.", "quantifier": "all let statements with initial value and all expression statements, arguments, hashes and fuel", "why_tests_cant": "Equality of outcomes over all initial values, also the rejected ones; the expansion tests have no let-else and compare no let with its initial value.", "anchors": ["src/auto_enum/mod.rs:expand_parent_local"]}
{"id": "C70", "title": "Operands are opaque", "statement": "Replace the literals of the annotated code by arbitrary expressions that are neither branches, blocks, jumps nor macro calls, and in which there is nothing to do for the macro (no helper attributes, no return, ? or break outside of closures, no unqualified macro calls), and that are not None or Err(..). Then the macro rejects the new code with the errors of the old, or its output is the old output with the same replacements. Naming of the enums aside, what the macro does is hence a function of the branches alone.", "quantifier": "all inputs, all replacements (any number and any size), arguments and hashes", "why_tests_cant": "Quantifies over all expressions that can stand in a branch; tests use a handful of iterators.", "anchors": ["src/auto_enum/expr.rs:child_expr", "src/auto_enum/expr.rs:is_unreachable", "src/auto_enum/visitor.rs:Visitor", "src/auto_enum/visitor.rs:FnVisitor", "src/auto_enum/visitor.rs:Dummy"]}
{"id": "C71", "title": "An expansion leaves nothing to expand", "statement": "If an attribute, with or without arguments, is expanded successfully, then an attribute without arguments put on the result returns it unchanged: the macro leaves no inner attribute behind that would still be expanded. The input must not have two auto_enum attributes on the same let or closure, nor one on an attributed closure, in the else of an attributed let, or in the arguments of a macro call, and no trait is inferred from a type in the result.", "quantifier": "all inputs, arguments of the first attribute, nestings of inner attributes, hashes and amounts of recursion", "why_tests_cant": "Ranges over all nestings of inner attributes with and without arguments and over every path through the expansion on which one could be overlooked; the tests expand each input once.", "anchors": ["src/auto_enum/visitor.rs:VisitStmt", "src/auto_enum/visitor.rs:Dummy", "src/auto_enum/visitor.rs:Visitor", "src/auto_enum/mod.rs:expand_parent_stmt", "src/auto_enum/mod.rs:expand_parent_expr", "src/utils.rs:Attrs::find_remove_attr"]}
{"id": "C72", "title": "The attribute looks through parentheses, blocks, unsafe blocks and method calls", "statement": "Putting parentheses, a block, an unsafe block or a method call around an annotated expression, any number of times, changes nothing but that: the attribute then reports the same errors, or declares the same enum and has the same expansion of the expression inside of the same parentheses, blocks and method calls. The statements before the expression in such a block and the arguments of such a method call have nothing to do for the macro, and the expression is not a closure.", "quantifier": "all expressions other than closures, nestings of frames, arguments of the attribute, hashes and amounts of recursion", "why_tests_cant": "Ranges over all expressions, including those that are rejected or have inner attributes, markers, #[nested] and #[never], and over unboundedly nested frames; the tests have a few expressions in one frame each.", "anchors": ["src/auto_enum/expr.rs:child_expr", "src/auto_enum/expr.rs:is_unreachable", "src/auto_enum/visitor.rs:Visitor::visit_expr", "src/auto_enum/mod.rs:expand_expr", "src/lib.rs:auto_enum"]}
{"id": "C73", "title": "Statements without anything for the macro are opaque", "statement": "Add statements to the blocks of the annotated code, anywhere but at the end of a block, in which the macro has nothing to do: no return, ? or break outside of closures, no unqualified macro calls in expressions and none of the macro's attributes. Then the macro reports the same errors as before, or its output is the output for the original code with exactly the same statements added to its blocks, each once and in the same order (the names of the enums aside, which depend on the text).", "quantifier": "all inputs, all lists of added statements and places for them, arguments of the attribute and hashes", "why_tests_cant": "Ranges over all statements and all blocks of all inputs, including rejected ones; the tests have few blocks with more than their value.", "anchors": ["src/auto_enum/expr.rs:child_expr", "src/auto_enum/expr.rs:is_unreachable", "src/auto_enum/visitor.rs:Visitor", "src/auto_enum/visitor.rs:FnVisitor", "src/auto_enum/visitor.rs:FindNested", "src/auto_enum/mod.rs:expand_expr"]}
{"id": "C74", "title": "Hashes only name the enums", "statement": "The hash of the code, which the macro puts into the names of the enums it declares, has no other influence: for any two hash functions the macro reports the same errors, or its outputs are the same but for the names of the enums.", "quantifier": "all inputs, arguments of the attribute, hash functions (also ones with collisions)", "why_tests_cant": "The hash function of the standard library may change between releases, and every change of the code changes the hashes; a test sees one hash per input.", "anchors": ["src/auto_enum/context.rs:Builder", "src/auto_enum/context.rs:hash", "src/auto_enum/mod.rs:attribute", "src/auto_enum/visitor.rs:Visitor"]}
{"id": "C75", "title": "On a function the attribute acts as on a closure with the same body", "statement": "With a trait among the arguments, the attribute on `fn f() -> impl Trait { body }` with fewer than two `?`s, or on `fn f() -> Result<T, impl Trait> { body }` with two or more, is equivalent to the attribute on the closure `|| { body }`: both are rejected with the same errors, or both get the same new body and the same enum, which is declared as the first item of the function and in a block around the closure.", "quantifier": "all non-empty bodies, arguments of the attribute with a trait, names, attributes and environments", "why_tests_cant": "Functions and closures take different paths through the macro; a test compares the two on one body.", "anchors": ["src/auto_enum/mod.rs:expand_parent_item_fn", "src/auto_enum/mod.rs:expand_expr", "src/auto_enum/mod.rs:build_expr", "src/auto_enum/visitor.rs:visit_fn"]}
{"id": "C76", "title": "An if chain is treated as a match with guards", "statement": "The attribute on `if c1 { .. } else if c2 { .. } else { .. }` is equivalent to the attribute on `match () { _ if c1 => { .. } _ if c2 => { .. } _ => { .. } }`: both are rejected with the same errors, or the same enum is declared, the same branches are wrapped with the same variants, and all other code becomes the same.", "quantifier": "all chains with a final else and without #[nested], arguments of the attribute and environments", "why_tests_cant": "The two forms take different paths through the macro, which must agree on what diverges, what is wrapped and in which order; a test compares them on one chain.", "anchors": ["src/auto_enum/expr.rs:visit_last_expr_if", "src/auto_enum/expr.rs:visit_last_expr_match", "src/auto_enum/expr.rs:is_unreachable", "src/auto_enum/expr.rs:child_expr", "src/auto_enum/visitor.rs:Visitor"]}
{"id": "C77", "title": "Requests for traits add up", "statement": "`#[enum_derive(A.., B..)]` is accepted for an enum exactly when `#[enum_derive(A..)]` and `#[enum_derive(B..)]` are. Then it generates an implementation exactly when one of the two does, leaves to `#[derive]` what the first leaves followed by what the second leaves, and guards pin projections exactly when one of the two does.", "quantifier": "all enums, all pairs of lists of traits, and all sets of enabled features", "why_tests_cant": "Supertraits are added on demand and duplicates are dropped, both with regard to the whole list; a test sees one list, not that no trait of one list suppresses or adds something for the other.", "anchors": ["src/enum_derive.rs:expand", "src/enum_derive.rs:exists_alias", "src/enum_derive.rs:get_trait_deps"]}
{"id": "C78", "title": "Type analysis only matters for traits that are not named", "statement": "If the attribute names all supported traits of the `impl Trait` types in the annotated let's type or the annotated function's return type, and the attributes on lets inside of the input do so too, the feature `type_analysis` has no effect: the same code is produced or the same errors are reported with and without it.", "quantifier": "all inputs, arguments and hash functions", "why_tests_cant": "The feature changes three places of the expansion and may end it early; tests compare the two builds on the code that happens to be in the test suite.", "anchors": ["src/auto_enum/mod.rs:expand_expr", "src/auto_enum/mod.rs:expand_parent_local", "src/auto_enum/mod.rs:expand_parent_item_fn", "src/auto_enum/type_analysis.rs:collect_impl_trait"]}
{"id": "C79", "title": "An inferred trait can be moved to the attribute", "statement": "Traits that the feature `type_analysis` infers from the type of an annotated let or the return type of an annotated function can as well be named in the attribute, removing the type of the let: the same code is produced or the same errors are reported, whatever the code contains (inner attributes, `#[nested]`, markers). The only exception is an attribute that names no trait at all on a function that returns `impl Trait` and has fewer than two `return`s, or on a let of a closure with fewer than two `return`s and fewer than two `?`.", "quantifier": "all let statements and functions, argument lists and hash functions", "why_tests_cant": "Inference adds to a different list than the arguments and changes when the expansion ends early; a test compares the two ways of writing for single programs only.", "anchors": ["src/auto_enum/mod.rs:expand_parent_local", "src/auto_enum/mod.rs:expand_parent_item_fn", "src/auto_enum/mod.rs:expand_expr", "src/auto_enum/type_analysis.rs:collect_impl_trait", "src/auto_enum/context.rs:build"]}
{"id": "C80", "title": "The order of the variants and further variants do not matter", "statement": "If an enum has all variants of another one, in any order and possibly among others, `#[enum_derive]` with the same traits (other than Transpose) generates the same implementations for both; one that applies to the larger enum applies to the smaller one with the same associated types, and a method call on a value of the smaller enum does the same on the larger one. For two orders of the same variants this holds both ways.", "quantifier": "all pairs of enums, trait lists, features, payload types, payload behaviours and calls", "why_tests_cant": "The where clauses single out the first variant; tests use one order for each enum.", "anchors": ["src/enum_derive.rs:expand", "src/derive/ty_impls/transpose.rs:check_fields", "src/derive/core/iter.rs:iterator"]}
{"id": "C81", "title": "The names of the enum and of its variants do not matter", "statement": "Renaming an enum and (injectively) its variants does not change what `#[enum_derive]` does: the same implementations are generated with the same where clauses, associated types and generic parameters, or the same error is reported, and a method call on a value of a renamed variant has the same effect and result; the methods of Transpose return the renamed value.", "quantifier": "all enums, injective renamings, trait lists, features, payload behaviours and calls", "why_tests_cant": "The names of enums made by `#[auto_enum]` are hashes and numbers; tests see the few names of their own enums.", "anchors": ["src/enum_derive.rs:expand", "src/derive/ty_impls/transpose.rs:derive", "src/auto_enum/context.rs:build"]}
{"id": "C82", "title": "Attributes that are not for the macro do not matter", "statement": "Adding, dropping or replacing attributes other than `#[auto_enum]`, `#[never]`, `#[nested]` and `#[rec]` anywhere in the input of `#[auto_enum]` does not change the outcome other than by the same attributes: the same errors are reported, or the same expansion is produced with the attributes in the same places, up to the names of the enums, which come from hashes.", "quantifier": "all inputs, arguments, replacements of attributes and hashes", "why_tests_cant": "Any attribute can be on any expression, arm or statement, in any order with the attributes of the macro; tests have a few `#[rustfmt::skip]` and `#[allow]`.", "anchors": ["src/utils.rs:Attrs", "src/utils.rs:find_remove_attr", "src/auto_enum/visitor.rs:find_remove_attrs", "src/auto_enum/context.rs:next_expr_with_attrs"]}
{"id": "C83", "title": "Enums in enums act like the innermost value", "statement": "If a branch is itself an enum made by the macro, as with nested attributes, then every history of calls on the outer enum has the results and the effect of the same calls on the innermost value, no variant changes, and it does not matter in how many enums the value is.", "quantifier": "all depths of nesting, enums, payload behaviours, memories and call histories", "why_tests_cant": "Tests nest a few enums of fixed shape and run a few calls; the claim is about every depth and every history.", "anchors": ["src/derive/core/iter.rs:iterator", "src/derive/core/future.rs:derive", "src/enum_derive.rs:expand"]}
{"id": "C84", "title": "Enums in enums implement a trait exactly if the innermost types do, alike", "statement": "If the payloads of an enum are in part enums with the same derived trait, to any depth, then the outermost enum implements the trait exactly if all types that are reached through variants and are not such enums implement it with the same associated types, and then these are the associated types of the outermost enum, too.", "quantifier": "all nestings of enums, derived traits other than Error, and type systems", "why_tests_cant": "Tests compile a few nested enums; that no combination is wrongly accepted or rejected cannot be sampled.", "anchors": ["src/enum_derive.rs:expand", "src/derive/core/iter.rs:iterator"]}
{"id": "C85", "title": "Enums in enums are Unpin exactly if the innermost types are", "statement": "If an enum with a derived trait that has methods with receiver Pin<&mut Self> has payloads that are in part such enums, to any depth, then it is Unpin exactly if all types that are reached through variants and are not such enums are Unpin.", "quantifier": "all nestings of enums, lists of traits, feature sets and type systems", "why_tests_cant": "That pinning through several layers is sound depends on all types inside; tests use a few.", "anchors": ["src/enum_derive.rs:expand"]}
