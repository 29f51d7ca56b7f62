{
 "claims": [
  {
   "property": "C01",
   "status": "proved",
   "theorems": [
    "AutoEnums.C01_balance",
    "AutoEnums.C01_exactly_once",
    "AutoEnums.C01_in_block",
    "AutoEnums.C01_declared"
   ],
   "note": "Exactly-once needs distinct enum names, or block by block (C01_in_block) only that no enum has the name of one inside its own block; the balance needs neither."
  },
  {
   "property": "C02",
   "status": "proved",
   "theorems": [
    "AutoEnums.C02_generated_enums"
   ],
   "note": ""
  },
  {
   "property": "C03",
   "status": "partial",
   "theorems": [
    "AutoEnums.C03_partial",
    "AutoEnums.C03_accepted",
    "AutoEnums.C03_rejected",
    "AutoEnums.C03_inner_fails"
   ],
   "note": "Fails as stated with inner attributes: an inner attribute's own inner attributes are not registered with it, so an inner attribute without branches is rejected although one is nested in it (witnessed). Proved for ordinary inputs without inner attributes, where the accepted expansion is moreover characterised completely and the absence of other errors is a condition on the input alone."
  },
  {
   "property": "C04",
   "status": "proved",
   "theorems": [
    "AutoEnums.C04_edits",
    "AutoEnums.C04_skeleton"
   ],
   "note": ""
  },
  {
   "property": "C05",
   "status": "proved",
   "theorems": [
    "AutoEnums.C05",
    "AutoEnums.C05_parts",
    "AutoEnums.C05_inner"
   ],
   "note": "C05 covers inputs with inner attributes; what exactly becomes of guards, scrutinees and bodies is stated for inputs without them (C05_parts) and for what is outside of them (C05_inner). Unchanged means: treated like any other code inside the attribute, so literally unchanged without return, ?, markers and helper attributes."
  },
  {
   "property": "C06",
   "status": "partial",
   "theorems": [
    "AutoEnums.C06_partial",
    "AutoEnums.C06_rule",
    "AutoEnums.C06_else",
    "AutoEnums.C06_fails"
   ],
   "note": "Every branch of the chain is shown to be wrapped or skipped by an explicit rule, and the missing-else error is characterised. Partial because the rule is that of match arms only for branches that end in an expression or contain no #[nested]; C06_fails shows that a branch ending in a statement that contains #[nested] is wrapped as a whole. The converse direction of the error is stated for inputs without #[nested] and inner attributes, whose own chains may lack an else."
  },
  {
   "property": "C07",
   "status": "partial",
   "theorems": [
    "AutoEnums.C07_partial",
    "AutoEnums.C07_nested_partial",
    "AutoEnums.C07_inner_partial",
    "AutoEnums.C07_inner_nested_partial",
    "AutoEnums.C07_shadow_fails",
    "AutoEnums.C07_for_fails"
   ],
   "note": "All breaks inside a result loop are listed with Rust's label resolution and aligned with those of the expansion; if the loop contains #[nested], those of loops that are in result position because of it are wrapped, too. Stated for what is outside of inner attributes (C07_inner_partial; what is inside is C20), without shadowed labels and without break in the iterated expression of a for: the last two are where the code deviates from label resolution (C07_shadow_fails, C07_for_fails)."
  },
  {
   "property": "C08",
   "status": "proved",
   "theorems": [
    "AutoEnums.C08_return",
    "AutoEnums.C08_return_inferred",
    "AutoEnums.C08_closure",
    "AutoEnums.C08_let_closure",
    "AutoEnums.C08_other_types"
   ],
   "note": ""
  },
  {
   "property": "C09",
   "status": "partial",
   "theorems": [
    "AutoEnums.C09_inner_scopes_partial",
    "AutoEnums.C09_async_fails"
   ],
   "note": "Fails as stated for async blocks, whose `return` and `?` are rewritten (witnessed); proved for closures, try blocks and macro tokens. Nested items are C23."
  },
  {
   "property": "C10",
   "status": "proved",
   "theorems": [
    "AutoEnums.C10_desugar"
   ],
   "note": "The shape of the desugared match is also part of C04_edits."
  },
  {
   "property": "C11",
   "status": "partial",
   "theorems": [
    "AutoEnums.C11_mode_partial",
    "AutoEnums.C11_try_block_fails"
   ],
   "note": "Fails as stated: `?` of try blocks are counted but not rewritten (witnessed). Proved for the counted `?`, and for functions without try blocks these are the rewritten ones."
  },
  {
   "property": "C12",
   "status": "partial",
   "theorems": [
    "AutoEnums.C12_marker_partial",
    "AutoEnums.C12_macros_partial",
    "AutoEnums.C12_once_partial",
    "AutoEnums.C12_inner_marker_partial",
    "AutoEnums.C12_inner_macros_partial",
    "AutoEnums.C12_inner_once_partial",
    "AutoEnums.C12_tokens_fails",
    "AutoEnums.C12_statement_fails"
   ],
   "note": "For what is outside of inner attributes (C04 gives the negative direction for all inputs). Fails as stated for markers inside the tokens of a marker and for `marker! {..}` in statement position (both witnessed)."
  },
  {
   "property": "C13",
   "status": "partial",
   "theorems": [
    "AutoEnums.C13_arms",
    "AutoEnums.C13_branches",
    "AutoEnums.C13_breaks_partial",
    "AutoEnums.C13_nested_partial",
    "AutoEnums.C13_inner_partial",
    "AutoEnums.C13_inner_nested_partial",
    "AutoEnums.C13_returns",
    "AutoEnums.C13_depth_fails",
    "AutoEnums.C13_around_fails"
   ],
   "note": "Arms, branches and returns for all inputs in result position; breaks outside of inner attributes; in loops that contain #[nested] only those annotated themselves, since #[never] around an inner loop with #[nested] has no effect on its breaks (C13_around_fails). For annotated inner expressions see C14. C13_depth_fails: with a second #[auto_enum] nested inside an inner one, a #[never] on a break is removed before the enclosing loop is analysed, so the break is wrapped."
  },
  {
   "property": "C14",
   "status": "partial",
   "theorems": [
    "AutoEnums.C14_partial",
    "AutoEnums.C14_inner_partial",
    "AutoEnums.C14_arms",
    "AutoEnums.C06_partial",
    "AutoEnums.C14_twice_fails",
    "AutoEnums.C14_break_fails",
    "AutoEnums.C06_fails"
   ],
   "note": "For what is outside of inner attributes, in inputs whose result expressions are not themselves annotated #[nested] (those are wrapped twice: C14_twice_fails). A branch of an `if` without a final expression is wrapped although it contains #[nested] (C06_fails), and so is the value of a break (C14_break_fails)."
  },
  {
   "property": "C16",
   "status": "proved",
   "theorems": [
    "AutoEnums.C16"
   ],
   "note": "Needs that no trait is inferred (always so without `type_analysis`) and no `#[auto_enum]` further inside; the dummy attribute itself is consumed by the compiler."
  },
  {
   "property": "C17",
   "status": "proved",
   "theorems": [
    "AutoEnums.C17_errors",
    "AutoEnums.C17_args"
   ],
   "note": ""
  },
  {
   "property": "C18",
   "status": "proved",
   "theorems": [
    "AutoEnums.C18_no_assertion",
    "AutoEnums.C18"
   ],
   "note": "Valid means that only blocks and `if`s follow `else`, as Rust's grammar demands."
  },
  {
   "property": "C19",
   "status": "proved",
   "theorems": [
    "AutoEnums.C19_stable",
    "AutoEnums.C19",
    "AutoEnums.C19_enough",
    "AutoEnums.C19_one_result"
   ],
   "note": ""
  },
  {
   "property": "C15",
   "status": "partial",
   "theorems": [
    "AutoEnums.C15_partial",
    "AutoEnums.C15_fails"
   ],
   "note": "For inputs in which inner attributes are proper (not dummies, not on arms, not with #[nested]/#[never] on the same let or closure); the excluded cases do leave helper attributes (witnessed)."
  },
  {
   "property": "C20",
   "status": "proved",
   "theorems": [
    "AutoEnums.C20",
    "AutoEnums.C20_alone",
    "AutoEnums.C20_visit"
   ],
   "note": "For sources as the grammar allows them (no attributes after else); the inner attribute's expansion equals that of the macro on its own provided no enclosing marker is called or declared in the region. C20_visit is the same for any context, in particular for inner attributes."
  },
  {
   "property": "C21",
   "status": "partial",
   "theorems": [
    "AutoEnums.C21_partial",
    "AutoEnums.C21_depth_fails"
   ],
   "note": "Rejected for inner attributes that are not in the region of another inner attribute; deeper ones are not compared with anything (witnessed)."
  },
  {
   "property": "C22",
   "status": "proved",
   "theorems": [
    "AutoEnums.C22_parse_iff",
    "AutoEnums.C22_round_trip",
    "AutoEnums.C22_second_marker"
   ],
   "note": ""
  },
  {
   "property": "C23",
   "status": "proved",
   "theorems": [
    "AutoEnums.C23_verbatim"
   ],
   "note": ""
  },
  {
   "property": "C24",
   "status": "proved",
   "theorems": [
    "AutoEnums.C24_semi"
   ],
   "note": ""
  },
  {
   "property": "C25",
   "status": "partial",
   "theorems": [
    "AutoEnums.C25_partial",
    "AutoEnums.C25_arms_partial",
    "AutoEnums.C25_fails"
   ],
   "note": "Fails as stated: a labelled block with a break to it, and a block ending in an item, count as diverging but complete (witnessed, with the resulting ill-typed expansion). Proved for all other code, for every interpretation of everything but control flow, both for the test itself and for the arms of accepted expansions."
  },
  {
   "property": "C26",
   "status": "proved",
   "theorems": [
    "AutoEnums.C26_scope",
    "AutoEnums.C26_new"
   ],
   "note": ""
  },
  {
   "property": "C27",
   "status": "proved",
   "theorems": [
    "AutoEnums.C27",
    "AutoEnums.C27_marked_syntactic",
    "AutoEnums.C27_syntactic"
   ],
   "note": "For inputs without inner attributes; for every interpretation of everything but control flow."
  },
  {
   "property": "C28",
   "status": "partial",
   "theorems": [
    "AutoEnums.C28_marked_partial",
    "AutoEnums.C28_marked_syntactic_partial",
    "AutoEnums.C28_partial",
    "AutoEnums.C28_syntactic_partial",
    "AutoEnums.C28_try_partial",
    "AutoEnums.C28_label_fails"
   ],
   "note": "For inputs without inner attributes, method calls in result position, and wrapped values that reach the result through variables or calls; false for labelled blocks in result position, out of which values break unwrapped (witnessed). The mode that desugars ? has its own theorem. The semantics covers control flow and leaves everything else to an arbitrary machine; it has no scopes, moves, drops and types."
  },
  {
   "property": "C29",
   "status": "proved",
   "theorems": [
    "AutoEnums.C29_count"
   ],
   "note": ""
  },
  {
   "property": "C30",
   "status": "proved",
   "theorems": [
    "AutoEnums.C30",
    "AutoEnums.C30_inner"
   ],
   "note": "For what is outside of inner attributes and for arms of a result match; the third recognised path, Result, is in C11."
  },
  {
   "property": "C31",
   "status": "partial",
   "theorems": [
    "AutoEnums.C31_partial",
    "AutoEnums.C31_only",
    "AutoEnums.C31_requested",
    "AutoEnums.C31_derive_fails",
    "AutoEnums.C31_external_fails"
   ],
   "note": "Fails as stated: dependencies of traits left to #[derive] (Copy, Eq, Ord, ..) are dropped and six external traits have supertraits that are not added; both witnessed. Proved for every other supported trait."
  },
  {
   "property": "C32",
   "status": "partial",
   "theorems": [
    "AutoEnums.C32_partial",
    "AutoEnums.C32_fails"
   ],
   "note": "Fails as stated: two traits sharing an unrequested supertrait implement it twice (witnessed). Proved when requests share only requested supertraits."
  },
  {
   "property": "C33",
   "status": "partial",
   "theorems": [
    "AutoEnums.C33_partial",
    "AutoEnums.C33_once_partial",
    "AutoEnums.C33_fails"
   ],
   "note": "Fails for BufRead/io::BufRead (Read is implemented twice, witnessed). The set of implemented traits is always the same; multiplicities are for all other aliases."
  },
  {
   "property": "C34",
   "status": "proved",
   "theorems": [
    "AutoEnums.C34"
   ],
   "note": ""
  },
  {
   "property": "C35",
   "status": "proved",
   "theorems": [
    "AutoEnums.C35",
    "AutoEnums.C35_documented"
   ],
   "note": ""
  },
  {
   "property": "C36",
   "status": "proved",
   "theorems": [
    "AutoEnums.C36"
   ],
   "note": ""
  },
  {
   "property": "C37",
   "status": "proved",
   "theorems": [
    "AutoEnums.C37",
    "AutoEnums.C37_off"
   ],
   "note": ""
  },
  {
   "property": "C38",
   "status": "proved",
   "theorems": [
    "AutoEnums.C38_parse_iff",
    "AutoEnums.C38_reject"
   ],
   "note": ""
  },
  {
   "property": "C39",
   "status": "proved",
   "theorems": [
    "AutoEnums.C39",
    "AutoEnums.C39_call",
    "AutoEnums.C39_consume",
    "AutoEnums.expand_table"
   ],
   "note": "In the model's abstract machine; Error::source, which is not forwarded, is C43. By-value methods end the history: C39_consume."
  },
  {
   "property": "C40",
   "status": "proved",
   "theorems": [
    "AutoEnums.C40"
   ],
   "note": "In the model's abstract machine: payload methods cannot reach the discriminant of the enum they are in."
  },
  {
   "property": "C41",
   "status": "proved",
   "theorems": [
    "AutoEnums.C41_adapters",
    "AutoEnums.C41_client",
    "AutoEnums.C41_default"
   ],
   "note": ""
  },
  {
   "property": "C42",
   "status": "proved",
   "theorems": [
    "AutoEnums.C42"
   ],
   "note": ""
  },
  {
   "property": "C43",
   "status": "proved",
   "theorems": [
    "AutoEnums.C43"
   ],
   "note": ""
  },
  {
   "property": "C44",
   "status": "proved",
   "theorems": [
    "AutoEnums.C44_option",
    "AutoEnums.C44_result",
    "AutoEnums.C44_ok",
    "AutoEnums.C44_err"
   ],
   "note": ""
  },
  {
   "property": "C45",
   "status": "proved",
   "theorems": [
    "AutoEnums.C45",
    "AutoEnums.C45_others"
   ],
   "note": "Field types and parameters are token lists satisfying necessary conditions of Rust's grammar."
  },
  {
   "property": "C46",
   "status": "proved",
   "theorems": [
    "AutoEnums.C46_collected",
    "AutoEnums.C02_generated_enums"
   ],
   "note": ""
  },
  {
   "property": "C47",
   "status": "partial",
   "theorems": [
    "AutoEnums.C47_partial",
    "AutoEnums.C47_fails"
   ],
   "note": "Fails for error::Error (witnessed); proved for all other inferable traits."
  },
  {
   "property": "C48",
   "status": "proved",
   "theorems": [
    "AutoEnums.C48",
    "AutoEnums.C48_stmt",
    "AutoEnums.C48_let",
    "AutoEnums.C48_two",
    "AutoEnums.C48_after"
   ],
   "note": ""
  },
  {
   "property": "C49",
   "status": "proved",
   "theorems": [
    "AutoEnums.C49",
    "AutoEnums.C49_declared"
   ],
   "note": "Bounds on the type parameters of the traits (?Sized, Send) and the enum's own where clause are not represented."
  },
  {
   "property": "C50",
   "status": "proved",
   "theorems": [
    "AutoEnums.C50"
   ],
   "note": ""
  },
  {
   "property": "C51",
   "status": "proved",
   "theorems": [
    "AutoEnums.C51"
   ],
   "note": "Traits left to #[derive] are not covered."
  },
  {
   "property": "C52",
   "status": "partial",
   "theorems": [
    "AutoEnums.C52_partial",
    "AutoEnums.C52_generated",
    "AutoEnums.C52_counterexample"
   ],
   "note": "Fails as stated: the implementation of Coroutine has a parameter called R, which clashes with a parameter R of the enum (witnessed). Proved otherwise, and for all enums generated by auto_enum."
  },
  {
   "property": "C53",
   "status": "proved",
   "theorems": [
    "AutoEnums.C53"
   ],
   "note": ""
  },
  {
   "property": "C54",
   "status": "partial",
   "theorems": [
    "AutoEnums.C54_inferred_partial",
    "AutoEnums.C54_counterexample"
   ],
   "note": "The output is described by the same treatment as in `C03_accepted`. False with markers or `#[nested]`: a function whose value is no branch and that has fewer than two `return`s is left as it is although its marked expressions would be wrapped if the trait were named."
  },
  {
   "property": "C55",
   "status": "proved",
   "theorems": [
    "AutoEnums.C55_outside"
   ],
   "note": "For inputs whose code outside of the inner attributes is ordinary in the sense of C03; attributes on paths, calls and macro calls and on a let that ends a block are not taken as inner attributes of an ordinary input. With no inner attributes it is `C03_accepted` without the number of variants. What happens inside is C20."
  },
  {
   "property": "C56",
   "status": "proved",
   "theorems": [
    "AutoEnums.C56_outcome",
    "AutoEnums.C56_accepted"
   ],
   "note": "For ordinary inputs in the sense of C03 and attributes with trait arguments."
  },
  {
   "property": "C57",
   "status": "partial",
   "theorems": [
    "AutoEnums.C57_partial",
    "AutoEnums.C57_unmarked_partial",
    "AutoEnums.C57_tries_partial",
    "AutoEnums.C57_label_fails",
    "AutoEnums.C57_method_fails",
    "AutoEnums.C57_question_fails",
    "AutoEnums.C57_never_fails"
   ],
   "note": "Proved for ordinary inputs, with markers, #[nested] and #[never] (on what has no value), for arbitrary typing rules of everything but control flow; in the mode that desugars `?` (C57_tries_partial), for code without #[nested] and `try` blocks: the expansion is typed by rules that do not know `?`. False for a labelled block in result position that is left by `break` with a value, for a method call on diverging code, for a block that ends with `Err(..)?;`, and for #[never] on what has a value, none of which is wrapped (all witnessed). Missing: markers whose argument contains `break` or a wrapped `return`, scopes of items; in the mode that desugars `?`, also `?` in the argument of a marker, #[nested] and `try` blocks."
  },
  {
   "property": "C58",
   "status": "proved",
   "theorems": [
    "AutoEnums.C58"
   ],
   "note": "Attributes other than the names of markers in auto_enum, types and the qualified paths of macros are not replaced. Hashes, and with them the names of the enums, may change as long as equal names stay equal."
  },
  {
   "property": "C59",
   "status": "proved",
   "theorems": [
    "AutoEnums.C59",
    "AutoEnums.C59_exact",
    "AutoEnums.C59_annotation"
   ],
   "note": "C59_exact: nothing but the list of traits differs, for everything but annotated let statements under type_analysis; C59_annotation shows that the exception is needed."
  },
  {
   "property": "C60",
   "status": "proved",
   "theorems": [
    "AutoEnums.C60"
   ],
   "note": "The built attribute is parsed and expanded again by the model of #[enum_derive]."
  },
  {
   "property": "C61",
   "status": "partial",
   "theorems": [
    "AutoEnums.C61_partial",
    "AutoEnums.C61_tries_partial"
   ],
   "note": "Composition of C28 and C39, with the limits of C28: inputs without inner attributes, consistent control flow, the result wrapped. C61_tries_partial is about the errors in the mode that desugars `?`. Calls that borrow the enum in any number and order, and calls that consume it."
  },
  {
   "property": "C62",
   "status": "partial",
   "theorems": [
    "AutoEnums.C62_partial"
   ],
   "note": "Composition of C57 and C49, with the limits of C57: #[never] only on what has no value, no labelled blocks, no method calls on diverging code and no blocks that end with `Err(..)?;` in result position."
  },
  {
   "property": "C63",
   "status": "proved",
   "theorems": [
    "AutoEnums.C63",
    "AutoEnums.C63_fewer"
   ],
   "note": ""
  },
  {
   "property": "C64",
   "status": "partial",
   "theorems": [
    "AutoEnums.C64_partial",
    "AutoEnums.C64_once_partial",
    "AutoEnums.C64_fails"
   ],
   "note": "Fails as stated: `BufRead, io::BufRead, io::Read` implements Read twice, but once if io::Read comes first (witnessed). The set of implemented traits never depends on the order; the number of implementations does not if requests share only requested supertraits."
  },
  {
   "property": "C65",
   "status": "proved",
   "theorems": [
    "AutoEnums.C65",
    "AutoEnums.C65_plain",
    "AutoEnums.C65_questions"
   ],
   "note": "For all accepted inputs, including markers, #[nested], inner attributes and labelled blocks. With desugared `?` only for code without `try` blocks. The observer is arbitrary but cannot look at variants; scopes, moves, drops and types are not described."
  },
  {
   "property": "C66",
   "status": "partial",
   "theorems": [
    "AutoEnums.C66_partial",
    "AutoEnums.C66_exact_partial",
    "AutoEnums.C66_unmarked_partial",
    "AutoEnums.C66_tries_partial",
    "AutoEnums.C66_tries_exact_partial"
   ],
   "note": "For inputs without #[nested] whose results are branches, blocks, loops and returns, and without `?` where returns are wrapped. C66_exact_partial combines it with C57, for inputs without #[never]. C66_tries_partial and C66_tries_exact_partial are about the mode that desugars `?`. Missing: #[nested], labelled blocks and method calls in result position; in the mode that desugars `?`, `try` blocks and #[never] on `?`."
  },
  {
   "property": "C67",
   "status": "proved",
   "theorems": [
    "AutoEnums.C67",
    "AutoEnums.C67_declared"
   ],
   "note": "Against a separate specification of the methods of the supported traits, transcribed from the documentation of the libraries that declare them. Types of parameters and results are not modelled."
  },
  {
   "property": "C68",
   "status": "proved",
   "theorems": [
    "AutoEnums.C68",
    "AutoEnums.C68_alone",
    "AutoEnums.C68_exact"
   ],
   "note": "C68 lets outermost inner attributes have custom markers; then what they do on their own is told if the marker of the outer attribute is neither called nor declared in their input. C68_alone is for inputs without custom markers. Both are about accepted inputs. C68_exact, also without custom markers, says in addition that the input is accepted if and only if the inner attributes are, one after the other, and from which code each enum gets its name."
  },
  {
   "property": "C69",
   "status": "proved",
   "theorems": [
    "AutoEnums.C69",
    "AutoEnums.C69_else",
    "AutoEnums.C69_stmt"
   ],
   "note": "C69 is an equality of outcomes, errors included. C69_else is what it says about an else block, where inner attributes and markers are left over."
  },
  {
   "property": "C70",
   "status": "proved",
   "theorems": [
    "AutoEnums.C70",
    "AutoEnums.C70_run",
    "AutoEnums.C70_errors",
    "AutoEnums.C70_names"
   ],
   "note": "C70_names is for arbitrary hashes, with all enums given the same name; the others assume that the hash does not depend on the operands. The places to fill are the literals of the input. An operand may contain further code in which the macro has nothing to do: no helper attributes, no return, ? or break outside of closures, no macro call by a single name."
  },
  {
   "property": "C71",
   "status": "proved",
   "theorems": [
    "AutoEnums.C71"
   ],
   "note": "The arguments of macro calls must have no helper attributes at all (Throughout). Examples show that the conditions on lets, closures and else are needed."
  },
  {
   "property": "C72",
   "status": "proved",
   "theorems": [
    "AutoEnums.C72"
   ],
   "note": "For any nesting of frames, with the same hash of the annotated tokens. An example shows that the exception for closures is needed."
  },
  {
   "property": "C73",
   "status": "proved",
   "theorems": [
    "AutoEnums.C73",
    "AutoEnums.C73_run",
    "AutoEnums.C73_errors",
    "AutoEnums.C73_names"
   ],
   "note": "C73_names is for arbitrary hashes, with all enums given the same name; the others assume that the hash does not depend on the added statements. Examples show that the statements must have nothing to do for the macro and must not be at the end of a block."
  },
  {
   "property": "C74",
   "status": "proved",
   "theorems": [
    "AutoEnums.C74",
    "AutoEnums.C74_errors"
   ],
   "note": "Outcomes are compared after giving all enums the same name. That within one outcome each name stands for the right enum is C01 and C26, and from which code the names come is C68_exact."
  },
  {
   "property": "C75",
   "status": "proved",
   "theorems": [
    "AutoEnums.C75"
   ],
   "note": "Both runs are given the same hash, as C74 allows. Functions with other return types, for which only the values of the body and no `return` or `?` is wrapped, are not compared with closures."
  },
  {
   "property": "C76",
   "status": "proved",
   "theorems": [
    "AutoEnums.C76"
   ],
   "note": "For chains that are annotated themselves; C72, C69 and C75 carry this over to chains inside of blocks, lets and functions. Branches with #[nested] are excluded, for which it is false (witnessed, and see C06)."
  },
  {
   "property": "C77",
   "status": "proved",
   "theorems": [
    "AutoEnums.C77"
   ],
   "note": "The order of the implementations and their number are those of C31 and C32; here they are compared as sets."
  },
  {
   "property": "C78",
   "status": "proved",
   "theorems": [
    "AutoEnums.C78"
   ],
   "note": "Equality of the whole outcome for every fuel; examples show that both conditions are needed."
  },
  {
   "property": "C79",
   "status": "proved",
   "theorems": [
    "AutoEnums.C79",
    "AutoEnums.C79_counterexample"
   ],
   "note": "Equality of the whole outcome for every fuel. The exception in the statement is needed (C79_counterexample)."
  },
  {
   "property": "C80",
   "status": "proved",
   "theorems": [
    "AutoEnums.C80",
    "AutoEnums.C80_order",
    "AutoEnums.C80_transpose"
   ],
   "note": "C80 is about enums with more variants, C80_order about another order. Transpose is excluded by the statement: C80_transpose shows that its acceptance depends on the order."
  },
  {
   "property": "C81",
   "status": "proved",
   "theorems": [
    "AutoEnums.C81",
    "AutoEnums.C81_transpose"
   ],
   "note": "C81 is about all traits, C81_transpose about the methods of Transpose, which return values of the enum."
  },
  {
   "property": "C82",
   "status": "proved",
   "theorems": [
    "AutoEnums.C82",
    "AutoEnums.C82_same",
    "AutoEnums.C82_errors"
   ],
   "note": "C82: any replacement of such attributes. C82_same: any two inputs that only differ in them. C82_errors: the errors are the same."
  },
  {
   "property": "C83",
   "status": "proved",
   "theorems": [
    "AutoEnums.C83",
    "AutoEnums.C83_flat",
    "AutoEnums.C83_consume"
   ],
   "note": "C83_flat: it does not matter in which and how many enums the value is. C83_consume is about methods that consume their receiver. Error::source is excluded, as in C39."
  },
  {
   "property": "C84",
   "status": "proved",
   "theorems": [
    "AutoEnums.C84"
   ],
   "note": "For all traits but Error, which in addition requires the types to be static. Assumes of the type system that the derived implementation is what makes an enum implement the trait, and that the enum has the associated types of its first variant."
  },
  {
   "property": "C85",
   "status": "proved",
   "theorems": [
    "AutoEnums.C85"
   ],
   "note": "Assumes of the type system that an enum is Unpin exactly if an implementation of Unpin in the output applies."
  }
 ]
}
