#!/usr/bin/env python3
"""Writes MANIFEST.json."""
import json, os
CLAIMS = [
 ("C01","proved",["C01_balance","C01_exactly_once","C01_in_block","C01_declared"],"Exactly-once needs distinct enum names, or block by block (C01_in_block) only that no enum has the name of one inside its own block; the balance needs neither."),
 ("C02","proved",["C02_generated_enums"],""),
 ("C03","partial",["C03_partial","C03_accepted","C03_rejected","C03_inner_fails"],"Fails as stated with inner attributes: an inner attribute's own inner attributes are not registered with it, so an inner attribute without branches is rejected although one is nested in it (witnessed). Proved for ordinary inputs without inner attributes, where the accepted expansion is moreover characterised completely and the absence of other errors is a condition on the input alone."),
 ("C04","proved",["C04_edits","C04_skeleton"],""),
 ("C05","proved",["C05","C05_parts","C05_inner"],"C05 covers inputs with inner attributes; what exactly becomes of guards, scrutinees and bodies is stated for inputs without them (C05_parts) and for what is outside of them (C05_inner). Unchanged means: treated like any other code inside the attribute, so literally unchanged without return, ?, markers and helper attributes."),
 ("C06","partial",["C06_partial","C06_rule","C06_else","C06_fails"],"Every branch of the chain is shown to be wrapped or skipped by an explicit rule, and the missing-else error is characterised. Partial because the rule is that of match arms only for branches that end in an expression or contain no #[nested]; C06_fails shows that a branch ending in a statement that contains #[nested] is wrapped as a whole. The converse direction of the error is stated for inputs without #[nested] and inner attributes, whose own chains may lack an else."),
 ("C07","partial",["C07_partial","C07_nested_partial","C07_inner_partial","C07_inner_nested_partial","C07_shadow_fails","C07_for_fails"],"All breaks inside a result loop are listed with Rust's label resolution and aligned with those of the expansion; if the loop contains #[nested], those of loops that are in result position because of it are wrapped, too. Stated for what is outside of inner attributes (C07_inner_partial; what is inside is C20), without shadowed labels and without break in the iterated expression of a for: the last two are where the code deviates from label resolution (C07_shadow_fails, C07_for_fails)."),
 ("C08","proved",["C08_return","C08_return_inferred","C08_closure","C08_let_closure","C08_other_types"],""),
 ("C09","partial",["C09_inner_scopes_partial","C09_async_fails"],"Fails as stated for async blocks, whose `return` and `?` are rewritten (witnessed); proved for closures, try blocks and macro tokens. Nested items are C23."),
 ("C10","proved",["C10_desugar"],"The shape of the desugared match is also part of C04_edits."),
 ("C11","partial",["C11_mode_partial","C11_try_block_fails"],"Fails as stated: `?` of try blocks are counted but not rewritten (witnessed). Proved for the counted `?`, and for functions without try blocks these are the rewritten ones."),
 ("C12","partial",["C12_marker_partial","C12_macros_partial","C12_once_partial","C12_inner_marker_partial","C12_inner_macros_partial","C12_inner_once_partial","C12_tokens_fails","C12_statement_fails"],"For what is outside of inner attributes (C04 gives the negative direction for all inputs). Fails as stated for markers inside the tokens of a marker and for `marker! {..}` in statement position (both witnessed)."),
 ("C13","partial",["C13_arms","C13_branches","C13_breaks_partial","C13_nested_partial","C13_inner_partial","C13_inner_nested_partial","C13_returns","C13_depth_fails","C13_around_fails"],"Arms, branches and returns for all inputs in result position; breaks outside of inner attributes; in loops that contain #[nested] only those annotated themselves, since #[never] around an inner loop with #[nested] has no effect on its breaks (C13_around_fails). For annotated inner expressions see C14. C13_depth_fails: with a second #[auto_enum] nested inside an inner one, a #[never] on a break is removed before the enclosing loop is analysed, so the break is wrapped."),
 ("C14","partial",["C14_partial","C14_inner_partial","C14_arms","C06_partial","C14_twice_fails","C14_break_fails","C06_fails"],"For what is outside of inner attributes, in inputs whose result expressions are not themselves annotated #[nested] (those are wrapped twice: C14_twice_fails). A branch of an `if` without a final expression is wrapped although it contains #[nested] (C06_fails), and so is the value of a break (C14_break_fails)."),
 ("C16","proved",["C16"],"Needs that no trait is inferred (always so without `type_analysis`) and no `#[auto_enum]` further inside; the dummy attribute itself is consumed by the compiler."),
 ("C17","proved",["C17_errors","C17_args"],""),
 ("C18","proved",["C18_no_assertion","C18"],"Valid means that only blocks and `if`s follow `else`, as Rust's grammar demands."),
 ("C19","proved",["C19_stable","C19","C19_enough","C19_one_result"],""),
 ("C15","partial",["C15_partial","C15_fails"],"For inputs in which inner attributes are proper (not dummies, not on arms, not with #[nested]/#[never] on the same let or closure); the excluded cases do leave helper attributes (witnessed)."),
 ("C20","proved",["C20","C20_alone","C20_visit"],"For sources as the grammar allows them (no attributes after else); the inner attribute's expansion equals that of the macro on its own provided no enclosing marker is called or declared in the region. C20_visit is the same for any context, in particular for inner attributes."),
 ("C21","partial",["C21_partial","C21_depth_fails"],"Rejected for inner attributes that are not in the region of another inner attribute; deeper ones are not compared with anything (witnessed)."),
 ("C22","proved",["C22_parse_iff","C22_round_trip","C22_second_marker"],""),
 ("C23","proved",["C23_verbatim"],""),
 ("C24","proved",["C24_semi"],""),
 ("C25","partial",["C25_partial","C25_arms_partial","C25_fails"],"Fails as stated: a labelled block with a break to it, and a block ending in an item, count as diverging but complete (witnessed, with the resulting ill-typed expansion). Proved for all other code, for every interpretation of everything but control flow, both for the test itself and for the arms of accepted expansions."),
 ("C26","proved",["C26_scope","C26_new"],""),
 ("C27","proved",["C27","C27_marked_syntactic","C27_syntactic"],"For inputs without inner attributes; for every interpretation of everything but control flow."),
 ("C28","partial",["C28_marked_partial","C28_marked_syntactic_partial","C28_partial","C28_syntactic_partial","C28_try_partial","C28_label_fails"],"For inputs without inner attributes, method calls in result position, and wrapped values that reach the result through variables or calls; false for labelled blocks in result position, out of which values break unwrapped (witnessed). The mode that desugars ? has its own theorem. The semantics covers control flow and leaves everything else to an arbitrary machine; it has no scopes, moves, drops and types."),
 ("C29","proved",["C29_count"],""),
 ("C30","proved",["C30","C30_inner"],"For what is outside of inner attributes and for arms of a result match; the third recognised path, Result, is in C11."),
 ("C31","partial",["C31_partial","C31_only","C31_requested","C31_derive_fails","C31_external_fails"],"Fails as stated: dependencies of traits left to #[derive] (Copy, Eq, Ord, ..) are dropped and six external traits have supertraits that are not added; both witnessed. Proved for every other supported trait."),
 ("C32","partial",["C32_partial","C32_fails"],"Fails as stated: two traits sharing an unrequested supertrait implement it twice (witnessed). Proved when requests share only requested supertraits."),
 ("C33","partial",["C33_partial","C33_once_partial","C33_fails"],"Fails for BufRead/io::BufRead (Read is implemented twice, witnessed). The set of implemented traits is always the same; multiplicities are for all other aliases."),
 ("C34","proved",["C34"],""),
 ("C35","proved",["C35","C35_documented"],""),
 ("C36","proved",["C36"],""),
 ("C37","proved",["C37","C37_off"],""),
 ("C38","proved",["C38_parse_iff","C38_reject"],""),
 ("C39","proved",["C39","C39_call","C39_consume","expand_table"],"In the model's abstract machine; Error::source, which is not forwarded, is C43. By-value methods end the history: C39_consume."),
 ("C40","proved",["C40"],"In the model's abstract machine: payload methods cannot reach the discriminant of the enum they are in."),
 ("C41","proved",["C41_adapters","C41_client","C41_default"],""),
 ("C42","proved",["C42"],""),
 ("C43","proved",["C43"],""),
 ("C44","proved",["C44_option","C44_result","C44_ok","C44_err"],""),
 ("C45","proved",["C45","C45_others"],"Field types and parameters are token lists satisfying necessary conditions of Rust's grammar."),
 ("C46","proved",["C46_collected","C02_generated_enums"],""),
 ("C47","partial",["C47_partial","C47_fails"],"Fails for error::Error (witnessed); proved for all other inferable traits."),
 ("C48","proved",["C48","C48_stmt","C48_let","C48_two","C48_after"],""),
 ("C49","proved",["C49","C49_declared"],"Bounds on the type parameters of the traits (?Sized, Send) and the enum's own where clause are not represented."),
 ("C50","proved",["C50"],""),
 ("C51","proved",["C51"],"Traits left to #[derive] are not covered."),
 ("C52","partial",["C52_partial","C52_generated","C52_counterexample"],"Fails as stated: the implementation of Coroutine has a parameter called R, which clashes with a parameter R of the enum (witnessed). Proved otherwise, and for all enums generated by auto_enum."),
 ("C53","proved",["C53"],""),
 ("C54","partial",["C54_inferred_partial","C54_counterexample"],"The output is described by the same treatment as in `C03_accepted`. False with markers or `#[nested]`: a function whose value is no branch and that has fewer than two `return`s is left as it is although its marked expressions would be wrapped if the trait were named."),
 ("C55","proved",["C55_outside"],"For inputs whose code outside of the inner attributes is ordinary in the sense of C03; attributes on paths, calls and macro calls and on a let that ends a block are not taken as inner attributes of an ordinary input. With no inner attributes it is `C03_accepted` without the number of variants. What happens inside is C20."),
 ("C56","proved",["C56_outcome","C56_accepted"],"For ordinary inputs in the sense of C03 and attributes with trait arguments."),
 ("C57","partial",["C57_partial","C57_unmarked_partial","C57_tries_partial","C57_label_fails","C57_method_fails","C57_question_fails","C57_never_fails"],"Proved for ordinary inputs, with markers, #[nested] and #[never] (on what has no value), for arbitrary typing rules of everything but control flow; in the mode that desugars `?` (C57_tries_partial), for code without #[nested] and `try` blocks: the expansion is typed by rules that do not know `?`. False for a labelled block in result position that is left by `break` with a value, for a method call on diverging code, for a block that ends with `Err(..)?;`, and for #[never] on what has a value, none of which is wrapped (all witnessed). Missing: markers whose argument contains `break` or a wrapped `return`, scopes of items; in the mode that desugars `?`, also `?` in the argument of a marker, #[nested] and `try` blocks."),
 ("C58","proved",["C58"],"Attributes other than the names of markers in auto_enum, types and the qualified paths of macros are not replaced. Hashes, and with them the names of the enums, may change as long as equal names stay equal."),
 ("C59","proved",["C59","C59_exact","C59_annotation"],"C59_exact: nothing but the list of traits differs, for everything but annotated let statements under type_analysis; C59_annotation shows that the exception is needed."),
 ("C60","proved",["C60"],"The built attribute is parsed and expanded again by the model of #[enum_derive]."),
 ("C61","partial",["C61_partial","C61_tries_partial"],"Composition of C28 and C39, with the limits of C28: inputs without inner attributes, consistent control flow, the result wrapped. C61_tries_partial is about the errors in the mode that desugars `?`. Calls that borrow the enum in any number and order, and calls that consume it."),
 ("C62","partial",["C62_partial"],"Composition of C57 and C49, with the limits of C57: #[never] only on what has no value, no labelled blocks, no method calls on diverging code and no blocks that end with `Err(..)?;` in result position."),
 ("C63","proved",["C63","C63_fewer"],""),
 ("C64","partial",["C64_partial","C64_once_partial","C64_fails"],"Fails as stated: `BufRead, io::BufRead, io::Read` implements Read twice, but once if io::Read comes first (witnessed). The set of implemented traits never depends on the order; the number of implementations does not if requests share only requested supertraits."),
 ("C65","proved",["C65","C65_plain","C65_questions"],"For all accepted inputs, including markers, #[nested], inner attributes and labelled blocks. With desugared `?` only for code without `try` blocks. The observer is arbitrary but cannot look at variants; scopes, moves, drops and types are not described."),
 ("C66","partial",["C66_partial","C66_exact_partial","C66_unmarked_partial","C66_tries_partial","C66_tries_exact_partial"],"For inputs without #[nested] whose results are branches, blocks, loops and returns, and without `?` where returns are wrapped. C66_exact_partial combines it with C57, for inputs without #[never]. C66_tries_partial and C66_tries_exact_partial are about the mode that desugars `?`. Missing: #[nested], labelled blocks and method calls in result position; in the mode that desugars `?`, `try` blocks and #[never] on `?`."),
 ("C67","proved",["C67","C67_declared"],"Against a separate specification of the methods of the supported traits, transcribed from the documentation of the libraries that declare them. Types of parameters and results are not modelled."),
 ("C68","proved",["C68","C68_alone","C68_exact"],"C68 lets outermost inner attributes have custom markers; then what they do on their own is told if the marker of the outer attribute is neither called nor declared in their input. C68_alone is for inputs without custom markers. Both are about accepted inputs. C68_exact, also without custom markers, says in addition that the input is accepted if and only if the inner attributes are, one after the other, and from which code each enum gets its name."),
 ("C69","proved",["C69","C69_else","C69_stmt"],"C69 is an equality of outcomes, errors included. C69_else is what it says about an else block, where inner attributes and markers are left over."),
 ("C70","proved",["C70","C70_run","C70_errors","C70_names"],"C70_names is for arbitrary hashes, with all enums given the same name; the others assume that the hash does not depend on the operands. The places to fill are the literals of the input. An operand may contain further code in which the macro has nothing to do: no helper attributes, no return, ? or break outside of closures, no macro call by a single name."),
 ("C71","proved",["C71"],"The arguments of macro calls must have no helper attributes at all (Throughout). Examples show that the conditions on lets, closures and else are needed."),
 ("C72","proved",["C72"],"For any nesting of frames, with the same hash of the annotated tokens. An example shows that the exception for closures is needed."),
 ("C73","proved",["C73","C73_run","C73_errors","C73_names"],"C73_names is for arbitrary hashes, with all enums given the same name; the others assume that the hash does not depend on the added statements. Examples show that the statements must have nothing to do for the macro and must not be at the end of a block."),
 ("C74","proved",["C74","C74_errors"],"Outcomes are compared after giving all enums the same name. That within one outcome each name stands for the right enum is C01 and C26, and from which code the names come is C68_exact."),
 ("C75","proved",["C75"],"Both runs are given the same hash, as C74 allows. Functions with other return types, for which only the values of the body and no `return` or `?` is wrapped, are not compared with closures."),
 ("C76","proved",["C76"],"For chains that are annotated themselves; C72, C69 and C75 carry this over to chains inside of blocks, lets and functions. Branches with #[nested] are excluded, for which it is false (witnessed, and see C06)."),
 ("C77","proved",["C77"],"The order of the implementations and their number are those of C31 and C32; here they are compared as sets."),
 ("C78","proved",["C78"],"Equality of the whole outcome for every fuel; examples show that both conditions are needed."),
 ("C79","proved",["C79","C79_counterexample"],"Equality of the whole outcome for every fuel. The exception in the statement is needed (C79_counterexample)."),
 ("C80","proved",["C80","C80_order","C80_transpose"],"C80 is about enums with more variants, C80_order about another order. Transpose is excluded by the statement: C80_transpose shows that its acceptance depends on the order."),
 ("C81","proved",["C81","C81_transpose"],"C81 is about all traits, C81_transpose about the methods of Transpose, which return values of the enum."),
 ("C82","proved",["C82","C82_same","C82_errors"],"C82: any replacement of such attributes. C82_same: any two inputs that only differ in them. C82_errors: the errors are the same."),
 ("C83","proved",["C83","C83_flat","C83_consume"],"C83_flat: it does not matter in which and how many enums the value is. C83_consume is about methods that consume their receiver. Error::source is excluded, as in C39."),
 ("C84","proved",["C84"],"For all traits but Error, which in addition requires the types to be static. Assumes of the type system that the derived implementation is what makes an enum implement the trait, and that the enum has the associated types of its first variant."),
 ("C85","proved",["C85"],"Assumes of the type system that an enum is Unpin exactly if an implementation of Unpin in the output applies."),
]
out={"claims":[{"property":p,"status":s,"theorems":["AutoEnums."+t for t in ts],"note":n} for p,s,ts,n in CLAIMS]}
path=os.path.join(os.path.dirname(__file__),"..","MANIFEST.json")
json.dump(out,open(path,"w"),indent=1,ensure_ascii=False); open(path,"a").write("\n")
# Verif/Audit.lean prints the axioms of every theorem listed.
names=[]
for c in out["claims"]:
    for t in c["theorems"]:
        if t not in names: names.append(t)
props=os.path.join(os.path.dirname(__file__),"..","lean","Verif","Props")
mods=sorted(f[:-5] for f in os.listdir(props) if f.endswith(".lean"))
with open(os.path.join(props,"..","Audit.lean"),"w") as f:
    for m in mods: f.write("import Verif.Props.%s\n"%m)
    f.write("\n/-! # The axioms of every theorem of MANIFEST.json\n\nWritten by `tools/manifest.py`. -/\n\n")
    for n in names: f.write("#print axioms %s\n"%n)
