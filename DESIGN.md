# Formal model of auto_enums (Lean 4)

Contents: 1 trusted base, 2 what is modelled and what is not, 3 how the model is
organised, 4 proof methods, 5 the properties one by one, 6 where the code
disagrees with a property, 7 mutation tests.

## 1 Trusted base

* Lean 4.33.0's kernel and the three standard axioms `propext`,
  `Classical.choice`, `Quot.sound`. There is no other axiom, no `sorry`, no
  `native_decide`, no `bv_decide`, and nothing is imported from Mathlib.
  `Verif/Audit.lean` (written by `tools/manifest.py`) prints the axioms of every
  theorem listed in `MANIFEST.json`: 174 depend on all three, 19 on `propext` and
  `Quot.sound`, 23 on `propext` only.
* The transcription of `/repo/src` into Lean. Each definition cites the lines it
  models and says where it simplifies.
* What the model assumes about code outside `/repo`:
  * `syn`: the order in which the default `VisitMut` methods visit children,
    `Path::is_ident`, `Meta::require_*`, `Punctuated` parsing. Parsing of Rust
    itself is not modelled: inputs are trees. What a macro's tokens parse to as
    an expression is a part of the input tree (the kid of an `eMacro` node).
  * `DefaultHasher`: nothing. The hash is a parameter of the model, so the
    theorems hold for every hash function. Where distinct names are needed (C01)
    this is a hypothesis.
  * `derive_utils::derive_trait` and its macro `quick_derive!`: that they
    generate `match self { Enum::V(x) => <T as Trait>::method(x, ..), .. }` for
    each method of the given trait, as recorded in
    `/repo/tests/expand/**/*.expanded.rs`; that the where clause bounds every
    field type by the trait and equates associated types with those of the first
    field, and that associated types are those of the first field, as recorded
    there. No expansion of the `Fn` traits is recorded.
  * The list of cargo features and the trait table (`derive/**`) are transcribed
    by hand into `Verif/Derive/Table.lean`.
* For C25, C27, C28: the operational semantics of Rust's control flow in
  `Verif/Spec/Eval.lean`. For C39–C44: the abstract machine in
  `Verif/Derive/Eval.lean` and `Verif/Spec/Runtime.lean`. For C49–C53: the
  meaning of where clauses (`Typing.Holds`) and the declarations of the traits
  (`declarations`, `inherited`) in `Verif/Spec/Bounds.lean`. For C57: the typing
  rules of control flow in `Verif/Spec/Typing.lean`, and of markers and
  `#[nested]` in `Verif/Spec/TypingMark.lean`, and what is known of `Result`s in
  `Verif/Spec/TypingTry.lean`. For C67: the methods of the traits (`members`) in
  `Verif/Spec/Members.lean`. See section 4.

## 2 What is modelled

| Code | Lean module |
|---|---|
| `utils.rs` (`path_eq`, `Attrs`, node builders) | `Verif.Syntax`, `Verif.Utils` |
| `auto_enum/context.rs` (`Context`, `Args`, `Builder`, `join_child`, `build`, ..) | `Verif.Context`, `Verif.Args` |
| `auto_enum/expr.rs` (`child_expr`, `is_unreachable`, ..) | `Verif.ChildExpr` |
| `auto_enum/visitor.rs`: `FnVisitor`, `LoopVisitor`, `FindNested` | `Verif.ChildExpr` |
| `auto_enum/visitor.rs`: `Visitor`, `Dummy`, `VisitStmt`, `VisitLastMode` handling | `Verif.Visitor` |
| `auto_enum/mod.rs` (`attribute`, `expand_*`, `build_*`) | `Verif.Visitor` (`autoEnum` is the macro) |
| `auto_enum/type_analysis.rs` | `Verif.TypeAnalysis` |
| `enum_derive.rs` (parsing of arguments, aliases, dependencies, guard) | `Verif.Derive.Expand` |
| `derive/**` (names, features, pins, methods, bodies of hand-written methods) | `Verif.Derive.Table`, `Verif.Derive.Emit` |
| `derive/**` (type parameters, where clauses, associated types) | `Verif.Derive.Table`, `Verif.Derive.Bounds` |
| `derive/ty_impls/transpose.rs` (`check_fields`, bodies) | `Verif.Derive.Expand`, `Verif.Derive.Emit` |

### Syntax trees

A syntax tree is a rose tree `Node = mk kind attrs kids`. `Kind` has one
constructor per `syn::Expr` variant (all 38 of `utils.rs:221-260` and
`Verbatim`), and constructors for blocks, arms, statements and the attributed
function. `kids` are listed in `syn`'s visiting order, so `syn::visit_mut`'s
default traversal is "visit the kids from left to right" for every kind. A kind
carries what the code inspects (label, path, `;`, return type) and an opaque
string for the rest. Not every such tree is one the parser can produce. Theorems
that need this have it as a hypothesis (`shaped`, `grammatical`, `elseBare`,
`validIf`); each of them is part of Rust's grammar.

### Not modelled

* Spans and the wording of errors (errors are an enumeration).
* Expressions inside patterns, types and attributes; the signature of functions
  except the return type; generic arguments of path segments other than those
  inspected (the last segment of `Result<..>`).
* The tokens of macros other than "what they parse to as an expression".
* `visit_token_stream` style fallbacks of `syn`; `Expr::Verbatim` is a leaf.
* `Context`'s `Drop` panic ("context need to be checked", `context.rs:287`) and
  the `None` state of `Context::error`: the model's `errs` is always present. That
  every context is checked is visible in the code's control flow only.
* `lib.rs` (documentation and three entry points), `error.rs` (two macros).
* Text emission of the generated enum: an item `genEnum name variants fields
  traits` stands for the tokens of `context.rs:354-368`.

### State and failure

`Cx` (for `Context`) is a record threaded through pure functions. Every `unwrap`,
`debug_assert!`, `unreachable!` in the modelled code is an explicit entry of the
context's `panics` log, so "does not panic" is "the log is empty" (C18). Errors
are a list (`syn::Error::combine` is append). The ghost field `log` collects all
errors ever recorded, wherever they move, and is read by C17 only.

The visitor traverses trees again that it has already transformed (`#[nested]`,
inner attributes), so its recursion is not structural. The model takes fuel;
running out of fuel is a distinguished panic entry, and C19 proves that enough
fuel always exists and that then the result does not depend on it.

## 3 Organisation

* `Verif/*.lean`, `Verif/Derive/*.lean`: the model (see the table above), and
  `Trace*`, `Run*` (section 4), `Examples*` (concrete inputs).
* `Verif/Spec/*.lean`: the vocabulary of the statements. It is written without
  the model's traversals; it uses the type of trees, and where a statement is
  about the macro itself, `autoEnum`.
* `Verif/Lemmas/*.lean`: proofs of auxiliary facts.
* `Verif/Props/*.lean`: the theorems of `MANIFEST.json`, each with an example
  that meets its hypotheses. `C08.lean` has C08–C11 and C29, `C04.lean` has C04,
  C23, C24, `C02.lean` has C02 and C46, `C18.lean` has C18 and C19, `C31.lean`
  has C31–C38 and C47, `C39.lean` has C39–C44, `C49.lean` has C49–C53,
  `C60.lean` has C60–C62, `C63.lean` has C63 and C64.
* `tools/`: `manifest.py` writes `MANIFEST.json` and `Audit.lean`; `mutants.py`,
  `mutate.py`, `automutate.py`, `tablemutate.py`, `seedlog.py` are the mutation tests
  (chosen edits; every line of the traversal model; entries of the derive table; the log).

## 4 Proof methods

**Traces** (`Verif.Trace`, `Verif.TraceVisit`). A trace is a list of elementary
steps (wrap an expression, remove an attribute, put a block around an enum, ..).
One induction on fuel shows that every visit, successful or not, is a trace.
Properties that are preserved by each elementary step follow: C01 (balance of
constructors and declarations), C02, C04 (edits and skeleton), C17, C23, C24,
C26.

**Runs** (`Verif.Run`, `Verif.RunVisit`, `Verif.RunCore`). A second, finer
relation has one rule per function of the visitor, and is defined for
executions that record no error and no panic. `visit_run` shows that every
successful expansion is a derivation. Rule induction then gives properties of
accepted expansions that depend on context and position: C05–C15, C20, C21.

**The one-pass specification** (`Verif.Spec.Treat`, `Verif.Lemmas.Pend*`). For
inputs without inner attributes, `Treat` describes in one structural recursion
what becomes of every node, though the code gets there in several passes over
partially transformed trees. The state between passes is represented by a
"pending" tree; the refinement proof shows that each pass of the code commutes
with it (`expr_does`, `closure_does`, `fnAnalysis_does` in
`Verif.Lemmas.Whole`). C03, C05_parts, C07, C12, C14, C25, C27, C28, C30 are
read off `Treat`.

**Exits** (`Verif.Spec.Flow`). The list of all `return`s and `?`s of a tree with
the scope they belong to, aligned position by position with the list of the
expansion: C08–C11, C29. The same for the `break`s of a loop with Rust's label
resolution (`Verif.Spec.Break`): C07.

**Termination** (`Verif.Lemmas.Converge`). Lexicographic measure of inner
attributes left, `#[nested]` left and weight; stability of the result under more
fuel is a separate induction.

**Regions** (`Verif.Spec.Outside`, `Verif.Spec.Owned`, `Verif.Lemmas.Outside`,
`Alone`, `AloneVisit`, `Analysed`, `Owned`, `Regions`) for C20. `Outside`
describes what an attribute does to the code of an inner attribute. `Alone`
shows, by simulation of two runs, that the inner attribute's context behaves
like that of an attribute with nothing around it, as long as no enclosing marker
is called or declared.

**Evaluation** (`Verif.Spec.Eval`, `Verif.Lemmas.Eval*`) for C25, C27, C28. A
relational big-step semantics: an expression evaluates to a value, to a `break`
with label and value, to `continue`, to `return`, or diverges/panics. Everything
that is not control flow (calls, operators, patterns, variables) is left to an
arbitrary machine with an arbitrary state, over which the theorems quantify. It
has no scopes, moves, drops and types, and constructor calls of generated enums
just tag the value. In the mode that desugars `?` the machine must know `Ok` and
`Err` (`Results` in `Verif.Spec.EvalTry`: matching the patterns of the generated
arms, reading the bound variable), and a `?` that fails corresponds to a `return`
of the tagged error. Markers and `#[nested]` are covered where values flow into
the result through blocks, branches, `break`s and `return`s (`Consistent` in
`Verif.Spec.EvalMark`; `consistent` is the syntactic version). The source is then
run with `(e)` for `marker!(e)`. A wrapped value that is bound to a variable or
passed to a call before it becomes the result is out of reach, because the
machine of the source sees the bare value there.

**Observers** (`Verif.Spec.Meaning`, `Verif.Lemmas.Meaning*`) for C65. A second
semantics of control flow, in which generated constructors are functions like any
other and the machine gets the meanings of closures and `async` blocks instead of
their text. An observer is a pair of equivalences of values and states that all
operations of the machine respect, and for which a constructor returns something
that looks like its argument. Each edit of C04 is invisible to every observer, so
this covers all accepted inputs; it says nothing about which variant is used (that
is C28 and C57).

**Typing** (`Verif.Spec.Typing`, `Verif.Lemmas.Typing*`) for C57 and C66. Declarative
rules for control flow: branches agree, a loop has the type of its `break`s, a
diverging expression has any type. The types of everything else are an arbitrary
relation (`Rules`), and what is around the code is an arbitrary environment.
Scopes of variables are described: what follows a `let`, an `if let`, a pattern or
a guard is judged in the scope that it leaves, and all other code is confined; what
a scope is, and what a pattern binds, is up to `Rules`. There are no scopes of
items, coercions and inference, except that the rules must infer the type of
`None?` and `Err(..)?` (`Infers`): these count as diverging for the macro, but for
the compiler they only have whatever type is needed. "Any type" in the source is
what the wrapping allows the branches. In the source, a marker call and an expression
annotated `#[nested]` have the type of the enum (`Verif.Spec.TypingMark`), and the
argument and the branches have any type. `#[never]` is a promise that is trusted by the
macro; the rules for the source of C57 check it (`typedAs true`): what is annotated has no
value, i.e. is typed where nothing but a diverging expression is, and so are the `break`s
in it that are not wrapped because of it. C66 ignores it (`typedIn`). Expressions that are
not control flow diverge if the rules give them every type, like the call of a function
that returns `!`. In the mode that desugars `?`
(`Verif.Spec.TypingTry`, `Verif.Lemmas.TypingTry`), the function returns a `Result` whose
errors have the type of the enum, the rules know `Ok`, `Err` and the variables that their
patterns bind (`KnowsResults`, `DemandsResults`), and the expansion is judged by the rules
without `?`, so that no `?` can have survived.

**Equivariance** (`Verif.Spec.Rename`, `Verif.Lemmas.Rename`) for C58. Replacing
text commutes with every function of the model, the parser of the arguments, errors
and panics included. The names of macros and markers are part of the text, as long as
different ones stay different. The
lemmas also allow the trait lists of the context to be replaced, which gives C59.

**Derive** (`Verif.Derive.*`). The lookup table is a list; facts about each
entry are proved by evaluating the whole table (`decide +kernel`), and are lifted
to all argument lists, all strings and all feature sets by induction. Generated
methods are small expression trees evaluated by an abstract machine with
arbitrary payload types and arbitrary payload methods; C39 is a bisimulation by
induction on the call history. Where clauses are data interpreted in an arbitrary
assignment of types, implementations and associated types (`Typing`).

## 5 The properties

| Id | What is stated | How it is proved |
|---|---|---|
| C01 | constructor calls added = declarations added, per enum and variant; with distinct names exactly one each; exactly one in each declaring block if no enum is nested in the block of an enum of the same name (equal attributed code gets equal names) | traces; declaring blocks of a trace (`Lemmas/Blocks.lean`) |
| C02 | shape of every generated enum item | traces |
| C03 | accepted iff two or more sites (or an inner attribute), complete description of the accepted output; partial | one-pass specification |
| C04 | output reachable by the listed edits only; erasing the edits gives the input's skeleton | traces |
| C05 | arms of a result `match`: wrapped iff not skipped, numbered in order | runs; one-pass specification for guards and scrutinee |
| C06 | `if` chains, missing `else`; partial | runs, origin of the error by traces |
| C07 | `break`s with label resolution; partial | runs, alignment of lists |
| C08–C11 | `return`s and `?`s by scope; C09, C11 partial | runs, alignment of exit lists |
| C12 | marker calls; partial | one-pass specification, macro lists |
| C13 | `#[never]`; partial | corollaries of C05, C06, C07, C08 |
| C14 | `#[nested]`; partial | runs, one-pass specification |
| C15 | no helper attribute is left; partial | runs |
| C16 | dummy attribute is the identity | induction on fuel |
| C17 | errors are all reported and exclude code | traces with the ghost log |
| C18 | no assertion fails | traces, validity of `if`s as invariant |
| C19 | terminates, independent of fuel | measure; `visit_stays`: a run that has not panicked is the same with more fuel |
| C20 | regions of inner attributes | runs, simulation |
| C21 | marker names; partial | runs |
| C22 | argument parser = printer's inverse | induction on the list |
| C23 | items and foreign macros verbatim | traces |
| C24 | statement with `;` | traces |
| C25 | skipped = cannot complete; partial | evaluation |
| C26 | uses are inside the declaring block | traces, scoped predicate |
| C27, C28 | values are tagged; outcomes are kept | evaluation, simulation |
| C29 | counter = rewriter | exit lists |
| C30 | recognised paths | characterisation of `path_eq`, observed through the macro |
| C31–C38, C47 | `enum_derive` | induction over lists, evaluation of the table |
| C39–C44 | generated methods | abstract machine |
| C45 | `Transpose` accepted iff fields are the parameters | token lists |
| C46 | inferred traits | traversal = specification |
| C48 | errors do not hide each other | runs of erroneous expansions |
| C54 | inferred traits act like named ones | the treatment of C03, and the reverse of its counting: what adds no constructor changes nothing |
| C55 | inner attributes do not change what happens outside | the runs on the input and on the input with holes in place of the inner attributes are simulated step by step (`Lemmas/Outline*.lean`); the latter is that of C03. The theorems about inputs without inner attributes carry over to what is outside (`Props/Inner.lean`: C05, C07, C12, C13, C14, C30) |
| C56 | the errors reported for an input without inner attributes, exactly and in order | specification of the reports (`Spec/Reports.lean`) by structural recursion; the expansion reports them by induction over the visit, where what is still pending in a node (its `#[nested]`, the wrapping already done around it) is described as for C03 |
| C57 | the expansion has the type of the enum | typing rules with the types of everything but control flow left open (`Spec/Typing.lean`, `Spec/TypingMark.lean`); diverging code has every type (`Lemmas/TypingDiverge.lean`); induction over the treatment of C03 with any payload types (`Lemmas/TypingSim.lean`), which can be fixed because every constructor occurs once (`Lemmas/TypingPay.lean`, by C01) |
| C58 | names and literals do not influence the expansion | every function of the model commutes with the replacement, which acts on the context only by the names of the enum and of the markers; induction on fuel (`Lemmas/Rename.lean`) |
| C59 | which traits are requested does not influence the rewriting | the traits in the context commute with every function (C58's lemmas at the identity replacement), since a nonempty list only decides against the dummy and analysis exits; the built items differ in their trait list (`Lemmas/Traits.lean`) |
| C60 | generated enums are accepted by `#[enum_derive]`, which provides every trait | C02's description of generated enums fed to the model of `#[enum_derive]` (`Lemmas/Request`): the attribute is printed, parsed again and expanded; fields are type parameters, so `Transpose` succeeds |
| C61 | the resulting enum behaves like the wrapped value | C28 (which variant) composed with C39 (histories of calls on a variant) and C60 |
| C62 | the expansion is well typed and its enum implements a trait iff all branches do | C57 (payload types `σ`) composed with C49 (bounds) and C60 |
| C63 | more traits and features keep implementations | the set of implementations is `Wanted` and enabled (C31's lemmas); both are monotone |
| C64 | the order of requested traits does not matter | C63 in both directions; multiplicities by C32 |
| C65 | seen through the constructors, the expansion does what the source does | every edit of C04 is invisible to such an observer; congruence of the semantics, induction over the edits (`Lemmas/MeaningCongr.lean`, `Lemmas/MeaningStep.lean`) |
| C66 | the expansion is well typed only if the source is | induction over the treatment of C03, backwards: what is expected in the expansion is weakened to "any type" in the source (`Lemmas/TypingBack.lean`) |
| C67 | implementations are complete and have only methods of the trait | the whole table is compared with a specification of the traits' methods that is transcribed from the documentation of the libraries (`Spec/Members.lean`, `decide`); the generated methods are those of the table |
| C68 | an attribute without arguments expands the attributes in its input in place | induction over successful runs of the traversal without arguments; what is inside of an inner attribute's input by C20 (`Run.out`); conversely (C68_exact) induction over the tree, where different inner attributes need different fuel, put together by `visit_stays` |
| C69 | on a `let` the attribute acts as on the initial value | equality of the two runs; a type annotation from which no trait is inferred leaves the context alone |
| C70 | operands are opaque | replacing literals by operands commutes with every function of the expansion (`Lemmas/Fill.lean`, `FillVisit.lean`); the visitors are the identity on still code, and where the fuel of the two runs differs they are compared through visitors with another base (`FillFuel.lean`) |
| C71 | an expansion leaves nothing to expand | induction over successful runs: wherever an attribute is looked at, none is left (`Lemmas/SettledRun.lean`); the visitor without arguments is the identity on such code |
| C72 | the attribute looks through parentheses, blocks, unsafe blocks and method calls | equality of `child_expr` and of both visitors on the framed and the bare expression, by induction over the frames (`Lemmas/Frames.lean`) |
| C73 | statements without anything for the macro are opaque | a relation between a piece of code and the same with given statements added, indexed by these statements; every function of the expansion respects it (`Lemmas/Pads.lean`, `PadsVisit.lean`); an added statement is left alone by the visitors (`idle_inert`), where the fuel differs by the method of C70 |
| C74 | hashes only name the enums | C58 for the respelling that gives all enums the same name: every outcome is the one for the hash that is always 0. `C70_names` and `C73_names` follow from C70 and C73 for that hash |
| C75 | on a function the attribute acts as on a closure with the same body | both runs are reduced to the run over the statements of the body (`Closure.fn_run`, `Closure.closure_run`), from the same context: the return type gives the mode that the closure gets from its `?`s |
| C76 | an `if` chain is treated as a `match` with guards | the tests for skipping a branch and an arm agree without `#[nested]` (`Chains.wrap_both`), then induction over the chain for `child_expr` (`Chains.wraps_both`) and for both visitors (`Chains.chain_both`), the latter for their results with enough fuel |
| C77 | asking for two lists of traits at once is asking for each | what is wanted for an append is what is wanted for one of the parts (`wanted_append`), then the characterisations of the implementations, the rest and the guard |
| C78 | the feature `type_analysis` only matters for traits that are not named | the condition on inner `let`s is kept by every step of a trace (`Named.trace`), and under it each function of the visitors gives the same result with and without the feature (`Named.visit_same`, induction over the fuel) |
| C79 | an inferred trait can be moved to the attribute | the traversals do not look at the lists of traits (`Traits.visit_re`), both lists together stay the same, and the expansion is given up on neither side under `busy` (`Moved.stmt_re`) |
| C80 | the order of the variants and further variants do not matter | the expansion looks at the enum for `Transpose` only (`Variants.emit_unique`); where clauses by C49, associated types by C50; a `match` on distinct variants finds the same arm (`Variants.invoke_more`) |
| C81 | the names of the enum and of its variants do not matter | renaming commutes with finding the arm (`Variants.find_relabel`) and with evaluating it |
| C82 | attributes that are not for the macro do not matter | C58 with a respelling that replaces them (`Rename.findRemove_map`), names by C74 |
| C83 | enums in enums act like the innermost value | induction on the nesting, each level by C39 |
| C84 | enums in enums implement a trait exactly if the innermost types do | induction on the size of the type, each level by C49; the associated types of an enum are taken to be those of its first variant, as its implementations define them |
| C85 | enums in enums are `Unpin` exactly if the innermost types are | induction on the size of the type, each level by C53 |
| C49–C51, C53 | when implementations apply | bounds as data, interpreted in an arbitrary assignment of types; evaluation of the table against a table of the traits' declarations |
| C52 | generic parameters | evaluation of the table, names as strings |

## 6 Where the code disagrees with a property

Each of these is witnessed by a theorem that runs the model on a concrete input
(`decide +kernel`), and the remaining part is proved with the suffix `_partial`.

| Id | Witness | What happens |
|---|---|---|
| C03 | `C03_inner_fails` | an inner attribute's own inner attributes are not registered with it, so it is rejected |
| C06, C14 | `C06_fails`, `C14_break_fails`, `C14_twice_fails` | a branch of `if` ending in a statement that contains `#[nested]`, or the value of a `break` that contains it, is wrapped as a whole; an annotated result expression is wrapped twice |
| C07 | `C07_shadow_fails`, `C07_for_fails` | shadowed labels; `break` in the iterated expression of `for` |
| C09 | `C09_async_fails` | `return` and `?` in async blocks are rewritten |
| C11 | `C11_try_block_fails` | `?` in `try` blocks are counted but not rewritten |
| C12 | `C12_tokens_fails`, `C12_statement_fails` | markers in the tokens of a marker; `marker! { .. }` as a statement |
| C13 | `C13_around_fails` | `#[never]` on an expression around a loop with `#[nested]` has no effect on the `break`s of that loop |
| C13 | `C13_depth_fails` | at depth two, a `#[never]` on a `break` inside the innermost attribute's input is removed before the enclosing inner attribute's loop is analysed, so the `break` is wrapped |
| C15 | `C15_fails` | a dummy inner attribute keeps `#[nested]`/`#[never]` |
| C21 | `C21_depth_fails` | attributes at depth two or more may reuse a marker |
| C25 | `C25_fails` | a labelled block with a `break` to it, or a block ending in an item, counts as diverging |
| C28 | `C28_label_fails` | the value of a `break` out of a labelled block in result position is not wrapped |
| C57 | `C57_label_fails`, `C57_method_fails`, `C57_question_fails`, `C57_never_fails` | the value of a `break` out of a labelled block in result position is not wrapped; nor is a method call on diverging code, which has a type of its own; nor a block that ends with `Err(..)?;`, whose type is `()`; nor what is annotated `#[never]` although it has a value |
| C31 | `C31_derive_fails`, `C31_external_fails` | dependencies of traits left to `#[derive]` are dropped; supertraits of external traits are not added |
| C32, C33, C64 | `C32_fails`, `C33_fails`, `C64_fails` | a shared missing supertrait is implemented twice, with two spellings of a trait only in some orders |
| C54 | `C54_counterexample` | with an inferred trait, a function with neither branches nor two `return`s is left unchanged, even if it has markers or `#[nested]` annotations that a named trait would act on |
| C52 | `C52_counterexample` | the implementation of `Coroutine` has a parameter called `R`, without the underscores all others begin with |
| C47 | `C47_fails` | `error::Error` is inferred but not implemented under that name |

Other observations, not tied to a property:

* With type analysis, an attribute whose analysis finds no trait and that wraps
  nothing still calls `build` (`mod.rs`).
* `#[auto_enum(..)] e?` in `?` mode: the enclosing attribute desugars first, so
  the inner attribute is then on a `match`.
* The branch analysis of an enclosing loop also wraps `break`s in the region of an
  inner attribute that leave that loop (C20 states this).
* Markers of all enclosing attributes count as markers in an inner attribute
  (`context.rs:223-232`), which can only matter for code that is rejected by
  rustc, since an enclosing custom marker has been replaced by then (C20_visit).
* With type analysis, the type of an annotated `let` is removed only if the
  attribute does not repeat its trait: `#[auto_enum(Iterator)] let x: impl Iterator
  = ..` keeps the annotation, which rustc then rejects (`C59_annotation`;
  `type_analysis.rs:27-31`, `mod.rs:126-133`).
* The `else` block of an annotated `let`-`else` is not visited: inner attributes,
  helper attributes and markers in it are left over (`C69_else`; `mod.rs:140-152`).
* The documentation (`lib.rs:389-398`) says that type ascriptions are searched for
  branches too; `child_expr` (`expr.rs:16-38`) has no such case.
* `tokio` 0.2, 0.3 and 1 and `futures` share trait paths such as
  `::tokio::io::AsyncRead`; the model keeps these as written in `derive/**`.

## 7 Tests of the model against the crate's own tests

The code cannot be run here, so the model is checked against what the crate's tests record.

* `Verif/Suite.lean` (written by `tools/suite.py`): the input of every `#[auto_enum]` attribute in
  `tests/auto_enum.rs`, `tests/type_analysis.rs`, `tests/run-pass/auto_enum/unstable.rs` and
  `tests/ui/auto_enum/*.rs`, parsed by a small parser for the Rust that these files use
  (`tools/rust2lean.py`).  Inputs that the crate's tests compile are accepted by the model, leave no helper
  attribute and no marker behind, and yield one enum per attribute that names traits.  Inputs that
  the crate's tests reject are rejected with exactly the errors of the `.stderr` files.
* `Verif/ExpandSuite.lean` (written by `tools/expandsuite.py`): the 29 recorded expansions in
  `tests/expand` agree with `Derive/Expand.lean`, `Derive/Emit.lean`, `Derive/Bounds.lean` and
  `Derive/Table.lean`: the same implementations with the same generic parameters, where clauses and
  associated types, and the same methods, receivers, parameters and arms.

All are `example`s checked by `lake build`.  They are tests, and no claim of the manifest rests on them.

## 8 Mutation tests

`tools/mutants.py` lists wrong edits of the model; `tools/mutate.py` applies each
to a copy outside `/verif` and rebuilds. `seeded/LOG.jsonl` has one line per
attempt: the definition, the edit, the claim it breaks, the declarations that no
longer prove, the property theorems that fail themselves or depend on those.
