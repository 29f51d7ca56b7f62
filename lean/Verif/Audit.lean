import Verif.Props.C01
import Verif.Props.C01Blocks
import Verif.Props.C02
import Verif.Props.C03
import Verif.Props.C03Count
import Verif.Props.C04
import Verif.Props.C05
import Verif.Props.C06
import Verif.Props.C07
import Verif.Props.C08
import Verif.Props.C12
import Verif.Props.C13
import Verif.Props.C14
import Verif.Props.C15
import Verif.Props.C16
import Verif.Props.C17
import Verif.Props.C18
import Verif.Props.C20
import Verif.Props.C21
import Verif.Props.C22
import Verif.Props.C25
import Verif.Props.C26
import Verif.Props.C27
import Verif.Props.C28
import Verif.Props.C30
import Verif.Props.C31
import Verif.Props.C39
import Verif.Props.C45
import Verif.Props.C48
import Verif.Props.C49
import Verif.Props.C54
import Verif.Props.C55
import Verif.Props.C56
import Verif.Props.C57
import Verif.Props.C57Tries
import Verif.Props.C58
import Verif.Props.C59
import Verif.Props.C60
import Verif.Props.C63
import Verif.Props.C65
import Verif.Props.C66
import Verif.Props.C67
import Verif.Props.C68
import Verif.Props.C68Exact
import Verif.Props.C69
import Verif.Props.C70
import Verif.Props.C71
import Verif.Props.C72
import Verif.Props.C73
import Verif.Props.C74
import Verif.Props.C75
import Verif.Props.C76
import Verif.Props.C77
import Verif.Props.C78
import Verif.Props.C79
import Verif.Props.C80
import Verif.Props.C81
import Verif.Props.C82
import Verif.Props.C83
import Verif.Props.C84
import Verif.Props.C85
import Verif.Props.Inner

/-! # The axioms of every theorem of MANIFEST.json

Written by `tools/manifest.py`. -/

#print axioms AutoEnums.C01_balance
#print axioms AutoEnums.C01_exactly_once
#print axioms AutoEnums.C01_in_block
#print axioms AutoEnums.C01_declared
#print axioms AutoEnums.C02_generated_enums
#print axioms AutoEnums.C03_partial
#print axioms AutoEnums.C03_accepted
#print axioms AutoEnums.C03_rejected
#print axioms AutoEnums.C03_inner_fails
#print axioms AutoEnums.C04_edits
#print axioms AutoEnums.C04_skeleton
#print axioms AutoEnums.C05
#print axioms AutoEnums.C05_parts
#print axioms AutoEnums.C05_inner
#print axioms AutoEnums.C06_partial
#print axioms AutoEnums.C06_rule
#print axioms AutoEnums.C06_else
#print axioms AutoEnums.C06_fails
#print axioms AutoEnums.C07_partial
#print axioms AutoEnums.C07_nested_partial
#print axioms AutoEnums.C07_inner_partial
#print axioms AutoEnums.C07_inner_nested_partial
#print axioms AutoEnums.C07_shadow_fails
#print axioms AutoEnums.C07_for_fails
#print axioms AutoEnums.C08_return
#print axioms AutoEnums.C08_return_inferred
#print axioms AutoEnums.C08_closure
#print axioms AutoEnums.C08_let_closure
#print axioms AutoEnums.C08_other_types
#print axioms AutoEnums.C09_inner_scopes_partial
#print axioms AutoEnums.C09_async_fails
#print axioms AutoEnums.C10_desugar
#print axioms AutoEnums.C11_mode_partial
#print axioms AutoEnums.C11_try_block_fails
#print axioms AutoEnums.C12_marker_partial
#print axioms AutoEnums.C12_macros_partial
#print axioms AutoEnums.C12_once_partial
#print axioms AutoEnums.C12_inner_marker_partial
#print axioms AutoEnums.C12_inner_macros_partial
#print axioms AutoEnums.C12_inner_once_partial
#print axioms AutoEnums.C12_tokens_fails
#print axioms AutoEnums.C12_statement_fails
#print axioms AutoEnums.C13_arms
#print axioms AutoEnums.C13_branches
#print axioms AutoEnums.C13_breaks_partial
#print axioms AutoEnums.C13_nested_partial
#print axioms AutoEnums.C13_inner_partial
#print axioms AutoEnums.C13_inner_nested_partial
#print axioms AutoEnums.C13_returns
#print axioms AutoEnums.C13_depth_fails
#print axioms AutoEnums.C13_around_fails
#print axioms AutoEnums.C14_partial
#print axioms AutoEnums.C14_inner_partial
#print axioms AutoEnums.C14_arms
#print axioms AutoEnums.C14_twice_fails
#print axioms AutoEnums.C14_break_fails
#print axioms AutoEnums.C16
#print axioms AutoEnums.C17_errors
#print axioms AutoEnums.C17_args
#print axioms AutoEnums.C18_no_assertion
#print axioms AutoEnums.C18
#print axioms AutoEnums.C19_stable
#print axioms AutoEnums.C19
#print axioms AutoEnums.C19_enough
#print axioms AutoEnums.C19_one_result
#print axioms AutoEnums.C15_partial
#print axioms AutoEnums.C15_fails
#print axioms AutoEnums.C20
#print axioms AutoEnums.C20_alone
#print axioms AutoEnums.C20_visit
#print axioms AutoEnums.C21_partial
#print axioms AutoEnums.C21_depth_fails
#print axioms AutoEnums.C22_parse_iff
#print axioms AutoEnums.C22_round_trip
#print axioms AutoEnums.C22_second_marker
#print axioms AutoEnums.C23_verbatim
#print axioms AutoEnums.C24_semi
#print axioms AutoEnums.C25_partial
#print axioms AutoEnums.C25_arms_partial
#print axioms AutoEnums.C25_fails
#print axioms AutoEnums.C26_scope
#print axioms AutoEnums.C26_new
#print axioms AutoEnums.C27
#print axioms AutoEnums.C27_marked_syntactic
#print axioms AutoEnums.C27_syntactic
#print axioms AutoEnums.C28_marked_partial
#print axioms AutoEnums.C28_marked_syntactic_partial
#print axioms AutoEnums.C28_partial
#print axioms AutoEnums.C28_syntactic_partial
#print axioms AutoEnums.C28_try_partial
#print axioms AutoEnums.C28_label_fails
#print axioms AutoEnums.C29_count
#print axioms AutoEnums.C30
#print axioms AutoEnums.C30_inner
#print axioms AutoEnums.C31_partial
#print axioms AutoEnums.C31_only
#print axioms AutoEnums.C31_requested
#print axioms AutoEnums.C31_derive_fails
#print axioms AutoEnums.C31_external_fails
#print axioms AutoEnums.C32_partial
#print axioms AutoEnums.C32_fails
#print axioms AutoEnums.C33_partial
#print axioms AutoEnums.C33_once_partial
#print axioms AutoEnums.C33_fails
#print axioms AutoEnums.C34
#print axioms AutoEnums.C35
#print axioms AutoEnums.C35_documented
#print axioms AutoEnums.C36
#print axioms AutoEnums.C37
#print axioms AutoEnums.C37_off
#print axioms AutoEnums.C38_parse_iff
#print axioms AutoEnums.C38_reject
#print axioms AutoEnums.C39
#print axioms AutoEnums.C39_call
#print axioms AutoEnums.C39_consume
#print axioms AutoEnums.expand_table
#print axioms AutoEnums.C40
#print axioms AutoEnums.C41_adapters
#print axioms AutoEnums.C41_client
#print axioms AutoEnums.C41_default
#print axioms AutoEnums.C42
#print axioms AutoEnums.C43
#print axioms AutoEnums.C44_option
#print axioms AutoEnums.C44_result
#print axioms AutoEnums.C44_ok
#print axioms AutoEnums.C44_err
#print axioms AutoEnums.C45
#print axioms AutoEnums.C45_others
#print axioms AutoEnums.C46_collected
#print axioms AutoEnums.C47_partial
#print axioms AutoEnums.C47_fails
#print axioms AutoEnums.C48
#print axioms AutoEnums.C48_stmt
#print axioms AutoEnums.C48_let
#print axioms AutoEnums.C48_two
#print axioms AutoEnums.C48_after
#print axioms AutoEnums.C49
#print axioms AutoEnums.C49_declared
#print axioms AutoEnums.C50
#print axioms AutoEnums.C51
#print axioms AutoEnums.C52_partial
#print axioms AutoEnums.C52_generated
#print axioms AutoEnums.C52_counterexample
#print axioms AutoEnums.C53
#print axioms AutoEnums.C54_inferred_partial
#print axioms AutoEnums.C54_counterexample
#print axioms AutoEnums.C55_outside
#print axioms AutoEnums.C56_outcome
#print axioms AutoEnums.C56_accepted
#print axioms AutoEnums.C57_partial
#print axioms AutoEnums.C57_unmarked_partial
#print axioms AutoEnums.C57_tries_partial
#print axioms AutoEnums.C57_label_fails
#print axioms AutoEnums.C57_method_fails
#print axioms AutoEnums.C57_question_fails
#print axioms AutoEnums.C57_never_fails
#print axioms AutoEnums.C58
#print axioms AutoEnums.C59
#print axioms AutoEnums.C59_exact
#print axioms AutoEnums.C59_annotation
#print axioms AutoEnums.C60
#print axioms AutoEnums.C61_partial
#print axioms AutoEnums.C61_tries_partial
#print axioms AutoEnums.C62_partial
#print axioms AutoEnums.C63
#print axioms AutoEnums.C63_fewer
#print axioms AutoEnums.C64_partial
#print axioms AutoEnums.C64_once_partial
#print axioms AutoEnums.C64_fails
#print axioms AutoEnums.C65
#print axioms AutoEnums.C65_plain
#print axioms AutoEnums.C65_questions
#print axioms AutoEnums.C66_partial
#print axioms AutoEnums.C66_exact_partial
#print axioms AutoEnums.C66_unmarked_partial
#print axioms AutoEnums.C66_tries_partial
#print axioms AutoEnums.C66_tries_exact_partial
#print axioms AutoEnums.C67
#print axioms AutoEnums.C67_declared
#print axioms AutoEnums.C68
#print axioms AutoEnums.C68_alone
#print axioms AutoEnums.C68_exact
#print axioms AutoEnums.C69
#print axioms AutoEnums.C69_else
#print axioms AutoEnums.C69_stmt
#print axioms AutoEnums.C70
#print axioms AutoEnums.C70_run
#print axioms AutoEnums.C70_errors
#print axioms AutoEnums.C70_names
#print axioms AutoEnums.C71
#print axioms AutoEnums.C72
#print axioms AutoEnums.C73
#print axioms AutoEnums.C73_run
#print axioms AutoEnums.C73_errors
#print axioms AutoEnums.C73_names
#print axioms AutoEnums.C74
#print axioms AutoEnums.C74_errors
#print axioms AutoEnums.C75
#print axioms AutoEnums.C76
#print axioms AutoEnums.C77
#print axioms AutoEnums.C78
#print axioms AutoEnums.C79
#print axioms AutoEnums.C79_counterexample
#print axioms AutoEnums.C80
#print axioms AutoEnums.C80_order
#print axioms AutoEnums.C80_transpose
#print axioms AutoEnums.C81
#print axioms AutoEnums.C81_transpose
#print axioms AutoEnums.C82
#print axioms AutoEnums.C82_same
#print axioms AutoEnums.C82_errors
#print axioms AutoEnums.C83
#print axioms AutoEnums.C83_flat
#print axioms AutoEnums.C83_consume
#print axioms AutoEnums.C84
#print axioms AutoEnums.C85
