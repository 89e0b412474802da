{
 "claims": [
  {
   "property": "C01",
   "status": "proved",
   "theorems": [
    "FakeIt.C01_latest_matching_stubbing_answers",
    "FakeIt.C01_latest_matching_stubbing_wins"
   ],
   "note": "Every reachable state, every call of a method other than the destructor entries."
  },
  {
   "property": "C02",
   "status": "proved",
   "theorems": [
    "FakeIt.C02_script_in_order",
    "FakeIt.C02_exhausted_is_unexpected",
    "FakeIt.C02_call_completes"
   ],
   "note": "Script indices counted with multiplicity; exhaustion never falls back to an older stubbing."
  },
  {
   "property": "C03",
   "status": "partial",
   "theorems": [
    "FakeIt.C03_exactly_n_times_partial",
    "FakeIt.C03_nonpositive_times_repeats_forever",
    "FakeIt.C03_zero_times_is_violated"
   ],
   "note": "The claim is false for n = 0 (C03_zero_times_is_violated: performed for ever); proved for every n >= 1."
  },
  {
   "property": "C04",
   "status": "proved",
   "theorems": [
    "FakeIt.C04_always_actions_are_never_exhausted"
   ],
   "note": ""
  },
  {
   "property": "C05",
   "status": "proved",
   "theorems": [
    "FakeIt.C05_throwing_consumes_like_returning"
   ],
   "note": ""
  },
  {
   "property": "C06",
   "status": "partial",
   "theorems": [
    "FakeIt.C06_reentrancy_undefined_behaviour",
    "FakeIt.C06_reentrancy_repeats_the_action",
    "FakeIt.C06_reentrancy_skips_an_action",
    "FakeIt.C06_every_started_call_uses_one_action_partial"
   ],
   "note": "The claim is false: if a counted Do action uses its own stubbing, a later call may be undefined behaviour, an action may be performed again and another one skipped (three theorems). Proved (_partial): for all programs whose callbacks use mocks to any depth but not the stubbing whose counted action they perform, the program is defined and every started call, nested or not, uses exactly one entry of the script. The class of programs is given by the abstract mock of C72."
  },
  {
   "property": "C07",
   "status": "proved",
   "theorems": [
    "FakeIt.C07_unmentioned_call_is_reported",
    "FakeIt.C07_unmentioned_call_on_a_made_mock_is_reported",
    "FakeIt.C07_unmentioned_call_finishes",
    "FakeIt.C07_unaccepted_call_is_reported",
    "FakeIt.C07_exhausted_call_is_reported",
    "FakeIt.C07_handled_call_fires_nothing"
   ],
   "note": "All three kinds of unexpected calls, and absence of events otherwise."
  },
  {
   "property": "C08",
   "status": "proved",
   "theorems": [
    "FakeIt.C08_handled_call_is_recorded",
    "FakeIt.C08_recorded_exactly_once",
    "FakeIt.C08_unaccepted_call_is_not_recorded"
   ],
   "note": ""
  },
  {
   "property": "C09",
   "status": "proved",
   "theorems": [
    "FakeIt.C09_history_append_only"
   ],
   "note": ""
  },
  {
   "property": "C10",
   "status": "proved",
   "theorems": [
    "FakeIt.C10_recorded_arguments_are_fixed",
    "FakeIt.C10_verified_against",
    "FakeIt.C10_call_records_arguments"
   ],
   "note": ""
  },
  {
   "property": "C11",
   "status": "partial",
   "theorems": [
    "FakeIt.C11_ordinals_distinct_partial",
    "FakeIt.C11_later_call_larger_ordinal_partial",
    "FakeIt.C11_ordinals_repeat"
   ],
   "note": "Proved while fewer than 2^32 calls were made; C11_ordinals_repeat shows the 32 bit ordinal wraps and repeats."
  },
  {
   "property": "C12",
   "status": "partial",
   "theorems": [
    "FakeIt.C12_concurrent_ordinals_partial",
    "FakeIt.C12_finished_calls_have_ordinals_partial"
   ],
   "note": "Interleaving semantics of atomic increments for any number of threads. Proved for fewer than 2^32 calls in the process; beyond that ordinals repeat (C11_ordinals_repeat, one thread)."
  },
  {
   "property": "C13",
   "status": "partial",
   "theorems": [
    "FakeIt.C13_every_invocation_once_in_call_order_partial",
    "FakeIt.C13_iteration_order_irrelevant_partial",
    "FakeIt.C13_source_order_irrelevant_partial",
    "FakeIt.C13_failures_show_the_history_in_call_order_partial",
    "FakeIt.C13_a_call_is_lost"
   ],
   "note": "Proved while fewer than 2^32 calls were made. Beyond that the claim is false: C13_a_call_is_lost shows two recorded calls of which the verification sees one."
  },
  {
   "property": "C14",
   "status": "proved",
   "theorems": [
    "FakeIt.C14_analysis_terminates_in_bounds",
    "FakeIt.C14_empty_sequence_would_diverge"
   ],
   "note": ""
  },
  {
   "property": "C15",
   "status": "proved",
   "theorems": [
    "FakeIt.C15_count_is_maximum"
   ],
   "note": ""
  },
  {
   "property": "C16",
   "status": "partial",
   "theorems": [
    "FakeIt.C16_single_method_count",
    "FakeIt.C16_single_method_verdict_partial",
    "FakeIt.C16_miscounts_after_a_wrap"
   ],
   "note": "Counting of single methods and of disjoint matches: all lists. The verdict of whole statements: proved while fewer than 2^32 calls were made; C16_miscounts_after_a_wrap shows Exactly(2) failing after two calls that are 2^32 calls apart."
  },
  {
   "property": "C17",
   "status": "proved",
   "theorems": [
    "FakeIt.C17_plus_assoc",
    "FakeIt.C17_star_one",
    "FakeIt.C17_star_star",
    "FakeIt.C17_star_add",
    "FakeIt.C17_size"
   ],
   "note": ""
  },
  {
   "property": "C18",
   "status": "proved",
   "theorems": [
    "FakeIt.C18_star_rejects",
    "FakeIt.C18_illegal_count_has_no_effect"
   ],
   "note": "n_Time: C50_time_is_accepted_only_for_one."
  },
  {
   "property": "C19",
   "status": "partial",
   "theorems": [
    "FakeIt.C19_verification_reaches_a_verdict_partial",
    "FakeIt.C19_verdict_by_match_count_partial"
   ],
   "note": "Proved while fewer than 2^32 calls were made; C16_miscounts_after_a_wrap is a counterexample beyond."
  },
  {
   "property": "C20",
   "status": "partial",
   "theorems": [
    "FakeIt.C20_atLeast_partial",
    "FakeIt.C20_atLeast_zero_is_never",
    "FakeIt.C20_atLeast_zero_can_fail"
   ],
   "note": "The claim is false for n = 0: AtLeast(0) behaves as Never (C20_atLeast_zero_is_never, C20_atLeast_zero_can_fail); proved for n >= 1."
  },
  {
   "property": "C21",
   "status": "proved",
   "theorems": [
    "FakeIt.C21_failure_report",
    "FakeIt.C21_no_other_report"
   ],
   "note": "While fewer than 2^32 calls were made and methods mentioned (hypothesis Unwrapped)."
  },
  {
   "property": "C22",
   "status": "partial",
   "theorems": [
    "FakeIt.C22_passing_marks_partial",
    "FakeIt.C22_single_sequence_marks_exactly",
    "FakeIt.C22_incomplete_match_is_marked"
   ],
   "note": "The claim is false: invocations of an incomplete last match are marked too (C22_incomplete_match_is_marked). Proved: exactly those and the complete matches are marked; for a single sequence exactly the complete matches."
  },
  {
   "property": "C23",
   "status": "proved",
   "theorems": [
    "FakeIt.C23_verifyNoOther_exact",
    "FakeIt.C23_verdict_after_any_number_of_calls"
   ],
   "note": "The verdict for any number of calls; the order of the listed invocations while fewer than 2^32 calls were made (C11)."
  },
  {
   "property": "C24",
   "status": "partial",
   "theorems": [
    "FakeIt.C24_conversion_is_the_verdict_partial",
    "FakeIt.C24_noOther_conversion_is_the_verdict_partial",
    "FakeIt.C24_second_conversion_differs",
    "FakeIt.C24_second_noOther_conversion_differs"
   ],
   "note": "The claim is false for repeated conversion: the second conversion of a failed verification yields true. Proved for the first conversion."
  },
  {
   "property": "C25",
   "status": "partial",
   "theorems": [
    "FakeIt.C25_verifies_once_at_the_end_partial",
    "FakeIt.C25_any_cannot_be_replaced"
   ],
   "note": "Proved that a statement verifies exactly once at the end whatever the copies; \"with the last count that was set\" is false for Any() (C25_any_cannot_be_replaced)."
  },
  {
   "property": "C26",
   "status": "proved",
   "theorems": [
    "FakeIt.C26_verify_while_unwinding",
    "FakeIt.C26_verifyNoOther_while_unwinding",
    "FakeIt.C26_when_while_unwinding"
   ],
   "note": ""
  },
  {
   "property": "C27",
   "status": "proved",
   "theorems": [
    "FakeIt.C27_marks_never_matter",
    "FakeIt.C27_passes_again"
   ],
   "note": "While fewer than 2^32 calls were made and methods mentioned (hypothesis Unwrapped)."
  },
  {
   "property": "C28",
   "status": "proved",
   "theorems": [
    "FakeIt.C28_only_the_mocks_in_scope_matter"
   ],
   "note": "While fewer than 2^32 calls were made and methods mentioned (hypothesis Unwrapped)."
  },
  {
   "property": "C29",
   "status": "proved",
   "theorems": [
    "FakeIt.C29_matches_only_unverified",
    "FakeIt.C29_using_unverified_matches_only_unverified",
    "FakeIt.C29_never_recounts"
   ],
   "note": "While fewer than 2^32 calls were made and methods mentioned (hypothesis Unwrapped)."
  },
  {
   "property": "C30",
   "status": "proved",
   "theorems": [
    "FakeIt.C30_other_mocks_unchanged"
   ],
   "note": ""
  },
  {
   "property": "C31",
   "status": "partial",
   "theorems": [
    "FakeIt.C31_other_methods_not_involved",
    "FakeIt.C31_limit_of_counter_values",
    "FakeIt.C31_shared_counter_value_misroutes"
   ],
   "note": "Proved if no two methods of a mock are mentioned with the same __COUNTER__ value; C31_shared_counter_value_misroutes shows what happens otherwise."
  },
  {
   "property": "C32",
   "status": "partial",
   "theorems": [
    "FakeIt.C32_reset_mock_behaves_as_new_partial",
    "FakeIt.C32_reset_forgets"
   ],
   "note": "Proved for all futures that do not stub the destructor (see C33 for what happens then)."
  },
  {
   "property": "C33",
   "status": "partial",
   "theorems": [
    "FakeIt.C33_destructor_stubbing_is_lost_after_reset",
    "FakeIt.C33_destructor_stubbing_answers_without_reset",
    "FakeIt.C33_destructor_stubbing_answers_partial"
   ],
   "note": "The claim is false: C33_destructor_stubbing_is_lost_after_reset, for every class whose destructor is not the first virtual method. Proved without reset, and for destructors in the first position."
  },
  {
   "property": "C34",
   "status": "partial",
   "theorems": [
    "FakeIt.C34_clear_forgets_calls_only_partial",
    "FakeIt.C34_clear_zeroes_data_members"
   ],
   "note": "Proved for stubbings, scripts, dispatch and other mocks; false for data members (C34_clear_zeroes_data_members)."
  },
  {
   "property": "C35",
   "status": "proved",
   "theorems": [
    "FakeIt.C35_spied_method_runs_the_original"
   ],
   "note": ""
  },
  {
   "property": "C36",
   "status": "partial",
   "theorems": [
    "FakeIt.C36_mention_breaks_spied_method",
    "FakeIt.C36_mention_keeps_behaviour_partial"
   ],
   "note": "The claim is false for spied objects (C36_mention_breaks_spied_method); proved for methods mentioned before and for fake objects."
  },
  {
   "property": "C37",
   "status": "proved",
   "theorems": [
    "FakeIt.C37_destroyed_spy_restores_the_object"
   ],
   "note": ""
  },
  {
   "property": "C38",
   "status": "proved",
   "theorems": [
    "FakeIt.C38_using_accepts_iff_every_position_does",
    "FakeIt.C38_using_is_the_matcher_of_the_stubbing"
   ],
   "note": "Both the matching of Using(...) and the identity of the matcher that the stubbing uses."
  },
  {
   "property": "C39",
   "status": "partial",
   "theorems": [
    "FakeIt.C39_comparison_matchers_are_coherent",
    "FakeIt.C39_string_matchers_compare_lexicographically",
    "FakeIt.C39_approxEq_accepts_within_margin_partial",
    "FakeIt.C39_approxEq_overflows",
    "FakeIt.C39_approxEq_floating_partial",
    "FakeIt.C39_approxEq_accepts_outside_margin",
    "FakeIt.C39_approxEq_special_values"
   ],
   "note": "Proved for the comparison matchers over any total order, and for the string matchers. ApproxEq: proved for integers when the bounds do not overflow; C39_approxEq_overflows shows the overflow. Floating point (IEEE 754, round to nearest even): never rejects within the margin, accepts at most half a unit beyond it; C39_approxEq_accepts_outside_margin shows the iff is false; special values in C39_approxEq_special_values."
  },
  {
   "property": "C40",
   "status": "proved",
   "theorems": [
    "FakeIt.C40_expression_recognises_calls_it_served"
   ],
   "note": "While fewer than 2^32 calls were made and methods mentioned (hypothesis Unwrapped)."
  },
  {
   "property": "C41",
   "status": "proved",
   "theorems": [
    "FakeIt.C41_returnAndSet_assigns_by_position",
    "FakeIt.C41_void_returnAndSet_assigns_by_position",
    "FakeIt.C41_dead_variable_is_undefined",
    "FakeIt.C41_returnAndSet_on_the_machine"
   ],
   "note": "Values passed as lvalues are kept by reference: what is assigned is their value at call time, and undefined behaviour if they are gone by then (C41_dead_variable_is_undefined)."
  },
  {
   "property": "C42",
   "status": "proved",
   "theorems": [
    "FakeIt.C42_placeholders_assign_by_index"
   ],
   "note": ""
  },
  {
   "property": "C43",
   "status": "partial",
   "theorems": [
    "FakeIt.C43_listeners_are_told_in_order_partial",
    "FakeIt.C43_registration_order",
    "FakeIt.C43_registering_while_handling_is_undefined"
   ],
   "note": "Proved when no handler changes the listener registration; C43_registering_while_handling_is_undefined shows why."
  },
  {
   "property": "C44",
   "status": "proved",
   "theorems": [
    "FakeIt.C44_failure_message",
    "FakeIt.C44_no_more_message",
    "FakeIt.C44_unexpected_message",
    "FakeIt.C44_message_can_be_read"
   ],
   "note": "Texts of the arguments and of the method expressions are parameters (what the user-visible printers produce)."
  },
  {
   "property": "C45",
   "status": "partial",
   "theorems": [
    "FakeIt.C45_printed_pattern_identifies_expansion_partial",
    "FakeIt.C45_method_expressions_are_readable",
    "FakeIt.C45_predicates_print_the_same",
    "FakeIt.C45_unbalanced_texts_are_ambiguous"
   ],
   "note": "The claim is false: all Matching predicates print the same (C45_predicates_print_the_same) and argument texts with unbalanced parentheses make the pattern ambiguous (C45_unbalanced_texts_are_ambiguous). Proved for expressions with readable, pairwise distinct texts."
  },
  {
   "property": "C46",
   "status": "partial",
   "theorems": [
    "FakeIt.C46_destroyed_exactly_once_after_the_last_handle_partial",
    "FakeIt.C46_exceptions_of_operations",
    "FakeIt.C46_throwing_assignment_is_undefined"
   ],
   "note": "Proved when no destructor run by an assignment throws; C46_throwing_assignment_is_undefined shows why. C46_exceptions_of_operations: an operation throws exactly if it destroys a statement whose destructor throws."
  },
  {
   "property": "C47",
   "status": "partial",
   "theorems": [
    "FakeIt.C47_table_accesses_are_in_range_and_independent",
    "FakeIt.C47_destructor_wrapper_calls_the_given_function",
    "FakeIt.C47_copyFrom_copies_every_entry",
    "FakeIt.C47_copying_a_real_table_partial",
    "FakeIt.C47_copying_reads_in_front_of_a_real_table"
   ],
   "note": "Both layouts. Indices in range are a hypothesis (two or three cookies, entries below the table size). C47_copying_a_real_table_partial: taking over the entries of a spied object is safe in the Itanium layout and for classes without virtual destructor; C47_copying_reads_in_front_of_a_real_table: with the MSVC layout and a virtual destructor it reads in front of the compiler table."
  },
  {
   "property": "C48",
   "status": "partial",
   "theorems": [
    "FakeIt.C48_fine_uses_are_safe_partial",
    "FakeIt.C48_stubbing_twice_is_undefined",
    "FakeIt.C48_setting_the_matcher_after_stubbing_is_undefined",
    "FakeIt.C48_verifying_after_reset_is_undefined"
   ],
   "note": "The claim is false: stubbing twice with one expression, setting its matcher after stubbing, or verifying with it after Reset is undefined behaviour (C48_stubbing_twice_is_undefined, C48_setting_the_matcher_after_stubbing_is_undefined, C48_verifying_after_reset_is_undefined). Proved for every sequence of the remaining uses, including that every object is freed exactly once."
  },
  {
   "property": "C49",
   "status": "proved",
   "theorems": [
    "FakeIt.C49_function_receives_the_arguments",
    "FakeIt.C49_visitor_sees_each_argument_once",
    "FakeIt.C49_pair_visitor_sees_corresponding_arguments"
   ],
   "note": ""
  },
  {
   "property": "C50",
   "status": "partial",
   "theorems": [
    "FakeIt.C50_time_is_accepted_only_for_one",
    "FakeIt.C50_times_denotes_small_numbers_partial",
    "FakeIt.C50_times_truncates",
    "FakeIt.C50_exactly_of_large_literal"
   ],
   "note": "The claim is false for literals of 2^31 and more: C50_times_truncates, C50_exactly_of_large_literal. Proved below."
  },
  {
   "property": "C51",
   "status": "partial",
   "theorems": [
    "FakeIt.C51_default_answers_partial",
    "FakeIt.C51_references_share_one_object",
    "FakeIt.C51_default_reference_can_be_changed",
    "FakeIt.C51_non_constructible"
   ],
   "note": "The claim is false for methods returning by (non-const) reference: all of one type answer with the same object, which callers can change (C51_references_share_one_object, C51_default_reference_can_be_changed), and for types that cannot be default constructed (C51_non_constructible). Proved for values and const references."
  },
  {
   "property": "C52",
   "status": "partial",
   "theorems": [
    "FakeIt.C52_slot_is_the_dispatch_slot_partial",
    "FakeIt.C52_slots_beyond_the_probes",
    "FakeIt.C52_methods_have_their_own_slots",
    "FakeIt.C52_slot_agrees_with_bases",
    "FakeIt.C52_table_size_partial",
    "FakeIt.C52_large_classes_are_undefined",
    "FakeIt.C52_endOfVt_cuts_the_table",
    "FakeIt.C52_destructor_slot_partial",
    "FakeIt.C52_destructor_entries_are_adjacent",
    "FakeIt.C52_every_method_can_be_stubbed_partial",
    "FakeIt.C52_methods_after_endOfVt_are_undefined"
   ],
   "note": "Proved for slots up to 1000, for both compilers; beyond, probing is undefined behaviour (C52_slots_beyond_the_probes, C52_large_classes_are_undefined). A class with a virtual method void endOfVt() gets a table that is too small (C52_endOfVt_cuts_the_table, C52_methods_after_endOfVt_are_undefined). The layout rules of the compilers are an assumption (Model/Layout.lean)."
  },
  {
   "property": "C53",
   "status": "proved",
   "theorems": [
    "FakeIt.C53_accepts_iff_single_inheritance"
   ],
   "note": "As stated. A virtual base counts as one base, so the check also accepts it."
  },
  {
   "property": "C54",
   "status": "partial",
   "theorems": [
    "FakeIt.C54_members_live_until_reset_partial",
    "FakeIt.C54_members_die_with_the_mock_partial",
    "FakeIt.C54_stubbing_twice_is_undefined",
    "FakeIt.C54_clearing_zeroes_members",
    "FakeIt.C54_clearing_is_undefined",
    "FakeIt.C54_spied_members_are_destroyed_twice",
    "FakeIt.C54_spied_members_keep_their_values_partial"
   ],
   "note": "The claim is false when a member is stubbed twice, when the history is cleared while a member is stubbed, and for spied objects (C54_stubbing_twice_is_undefined, C54_clearing_zeroes_members, C54_clearing_is_undefined, C54_spied_members_are_destroyed_twice). Proved for all other histories; for spied objects with plain members in C54_spied_members_keep_their_values_partial."
  },
  {
   "property": "C55",
   "status": "partial",
   "theorems": [
    "FakeIt.C55_list_equals_one_by_one_partial",
    "FakeIt.C55_throwing_list_stubs_nothing"
   ],
   "note": "Proved for lists whose statement completes; if an expression of the list throws, nothing is stubbed (C55_throwing_list_stubs_nothing), unlike separate statements."
  },
  {
   "property": "C56",
   "status": "proved",
   "theorems": [
    "FakeIt.C56_library_refines_abstract_mock",
    "FakeIt.C56_abstract_mock_covers_library",
    "FakeIt.C56_same_programs_are_defined"
   ],
   "note": "Refinement in both directions (C56_library_refines_abstract_mock, C56_abstract_mock_covers_library). Hypotheses: consistent naming of methods (C31), counters below 2^32 (C11), writable patterns; for the converse also no Dtor after Reset (C33) and positive multiplicities (C03), where the real code deviates from any simple mock."
  },
  {
   "property": "C57",
   "status": "proved",
   "theorems": [
    "FakeIt.C57_spied_arguments_in_the_record"
   ],
   "note": "SpyWithoutVerify moving the by-value arguments out of the record is part of the statement."
  },
  {
   "property": "C58",
   "status": "partial",
   "theorems": [
    "FakeIt.C58_failed_verification_is_reported_partial",
    "FakeIt.C58_unexpected_call_is_reported_partial",
    "FakeIt.C58_catch_ignores_the_custom_formatter",
    "FakeIt.C58_position_is_dropped",
    "FakeIt.C58_text_is_cut",
    "FakeIt.C58_unset_position_is_undefined"
   ],
   "note": "Proved for all configurations and events except: under Catch a custom formatter is ignored (C58_catch_ignores_the_custom_formatter), MSTest, NUnit and QTest are not told the position (C58_position_is_dropped), texts with NUL characters are cut (C58_text_is_cut), failed verifications written without the macros are undefined behaviour (C58_unset_position_is_undefined)."
  },
  {
   "property": "C59",
   "status": "partial",
   "theorems": [
    "FakeIt.C59_printed_call_identifies_the_arguments_partial",
    "FakeIt.C59_legible_calls_print",
    "FakeIt.C59_texts_of_values",
    "FakeIt.C59_printed_matcher_identifies_the_matcher_partial",
    "FakeIt.C59_calls_that_print_the_same",
    "FakeIt.C59_strings_are_read_late",
    "FakeIt.C59_matchers_that_print_the_same"
   ],
   "note": "Proved for legible values. False for strings with separators, opaque types (C59_calls_that_print_the_same), matchers on strings (C59_matchers_that_print_the_same); C strings are read when the message is made (C59_strings_are_read_late)."
  },
  {
   "property": "C60",
   "status": "partial",
   "theorems": [
    "FakeIt.C60_single_header_is_the_same_program_partial",
    "FakeIt.C60_every_header_is_written_once",
    "FakeIt.C60_generator_comes_to_an_end",
    "FakeIt.C60_two_spellings_are_written_twice",
    "FakeIt.C60_bare_names_are_dropped",
    "FakeIt.C60_conditional_includes_get_lost"
   ],
   "note": "Same program text for tidy include trees (shown for the Google Test tree without the bare Xaction.hpp include); exactly-once and termination for all trees. False for two spellings (C60_two_spellings_are_written_twice), bare names (C60_bare_names_are_dropped), headers first included under a condition (C60_conditional_includes_get_lost)."
  },
  {
   "property": "C61",
   "status": "partial",
   "theorems": [
    "FakeIt.C61_completed_statements_act_partial",
    "FakeIt.C61_statements_in_destructors_are_skipped",
    "FakeIt.C61_statements_do_not_terminate"
   ],
   "note": "Proved for code whose destructors have no FakeIt statements; in destructors run by unwinding they are skipped (C61_statements_in_destructors_are_skipped)."
  },
  {
   "property": "C62",
   "status": "partial",
   "theorems": [
    "FakeIt.C62_matchers_compare_with_the_values_of_the_statement_partial",
    "FakeIt.C62_matchers_never_change_their_mind",
    "FakeIt.C62_kept_creators_of_temporaries_dangle",
    "FakeIt.C62_kept_creators_follow_the_variable",
    "FakeIt.C62_moved_values_serve_once"
   ],
   "note": "Proved for creators used in the statement that makes them, without a variable both moved and used in one statement. Otherwise false: C62_kept_creators_of_temporaries_dangle, C62_kept_creators_follow_the_variable, C62_moved_values_serve_once. That matchers never change their mind is proved without restriction."
  },
  {
   "property": "C63",
   "status": "partial",
   "theorems": [
    "FakeIt.C63_fake_object_has_the_size_of_the_class",
    "FakeIt.C63_other_sizes_are_rejected",
    "FakeIt.C63_new_fake_object_is_zero",
    "FakeIt.C63_tables_and_members_are_apart",
    "FakeIt.C63_members_are_aligned_partial",
    "FakeIt.C63_overaligned_members_may_be_misaligned"
   ],
   "note": "Size, zero bytes and separation are proved for every class layout; alignment for members that want no more than new provides, and refuted for all others (C63_overaligned_members_may_be_misaligned)."
  },
  {
   "property": "C64",
   "status": "partial",
   "theorems": [
    "FakeIt.C64_chains_are_read_from_left_to_right_partial"
   ],
   "note": "Proved for quantities of at least 1 and callables that do not use the same method again; quantities of 0 or less are refuted in C03, re-entrant callables in C06."
  },
  {
   "property": "C65",
   "status": "partial",
   "theorems": [
    "FakeIt.C65_callers_read_what_was_promised_partial",
    "FakeIt.C65_references_dangle"
   ],
   "note": "Proved for references to variables that are alive at the time of the call; dangling references are undefined (C65_references_dangle)."
  },
  {
   "property": "C66",
   "status": "partial",
   "theorems": [
    "FakeIt.Comments.C66_removing_comments_keeps_the_program_partial",
    "FakeIt.Comments.C66_strings_may_be_cut",
    "FakeIt.Comments.C66_directives_may_be_cut",
    "FakeIt.Comments.C66_words_may_be_joined",
    "FakeIt.Comments.C66_continued_comments_may_become_code"
   ],
   "note": "Proved for every text whose literals contain no comment marker, whose lines are not continued inside comments or right before a comment, and whose comments over several lines have code on at most one side. Each restriction is needed: C66_strings_may_be_cut, C66_directives_may_be_cut, C66_words_may_be_joined, C66_continued_comments_may_become_code. The headers of the repository satisfy the restrictions."
  },
  {
   "property": "C67",
   "status": "partial",
   "theorems": [
    "FakeIt.Stacked.C67_objects_with_mocks_stay_themselves_partial",
    "FakeIt.Stacked.C67_spied_objects_lose_their_type",
    "FakeIt.Stacked.C67_spied_objects_lose_methods",
    "FakeIt.Stacked.C67_newer_mocks_break_older_ones",
    "FakeIt.Stacked.C67_newer_mocks_answer_for_other_methods",
    "FakeIt.Stacked.C67_older_mocks_cannot_be_stubbed",
    "FakeIt.Stacked.C67_destroying_older_mocks_first_is_undefined",
    "FakeIt.Stacked.C67_spied_fakes_cannot_complain",
    "FakeIt.Stacked.C67_destroyed_mocks_cannot_be_used"
   ],
   "note": "Proved for all tests in which mocks are used and destroyed only while they are the newest of their object, only methods of the class by which the newest mock was attached are called, none stubbed by an older mock, and typeid is asked only if this is the class of the object. Each restriction is needed, see the other theorems of C67."
  },
  {
   "property": "C68",
   "status": "partial",
   "theorems": [
    "FakeIt.Predicates.C68_choosing_asks_in_order_and_leaves_the_call_alone_partial",
    "FakeIt.Predicates.C68_predicates_may_change_the_call",
    "FakeIt.Predicates.C68_predicates_cannot_stub",
    "FakeIt.Predicates.C68_stubbing_during_the_search_depends_on_room",
    "FakeIt.Predicates.C68_predicates_cannot_reset",
    "FakeIt.Predicates.C68_predicates_may_reset_and_throw"
   ],
   "note": "Proved for predicates that do not assign to the arguments, do not stub the same method and do not reset the mock. Each restriction is needed: C68_predicates_may_change_the_call, C68_predicates_cannot_stub, C68_predicates_cannot_reset."
  },
  {
   "property": "C69",
   "status": "partial",
   "theorems": [
    "FakeIt.Passing.C69_a_mocked_call_is_like_a_direct_call",
    "FakeIt.Passing.C69_the_code_sees_what_was_passed",
    "FakeIt.Passing.C69_the_code_acts_on_the_variable_passed",
    "FakeIt.Passing.C69_recorded_values_stay",
    "FakeIt.Passing.C69_recorded_references_are_the_variables",
    "FakeIt.Passing.C69_verification_of_kept_arguments_is_defined_partial",
    "FakeIt.Passing.Demo.C69_arguments_may_be_gone",
    "FakeIt.Passing.Demo.C69_messages_may_show_arguments_that_are_gone",
    "FakeIt.Passing.Demo.C69_records_show_what_the_action_left",
    "FakeIt.Passing.Demo.C69_which_signatures_are_accepted"
   ],
   "note": "Proved except that recorded calls can be verified at any later time: this is proved for tests that pass to reference parameters only variables that do not end (C69_verification_of_kept_arguments_is_defined_partial) and false otherwise (C69_arguments_may_be_gone, C69_messages_may_show_arguments_that_are_gone). The acceptance claim is for value parameters that can be copied or moved; it is false for others (C69_which_signatures_are_accepted)."
  },
  {
   "property": "C70",
   "status": "proved",
   "theorems": [
    "FakeIt.C70_other_mocks_do_not_matter",
    "FakeIt.C70_interleaving_does_not_matter",
    "FakeIt.C70_reports_name_the_same_methods"
   ],
   "note": "By non-interference on the abstract mock, lifted to the library through the refinement of C56; the restrictions of C56 (Orderly, Small, Named, callbacks that use no mocks) apply."
  },
  {
   "property": "C71",
   "status": "partial",
   "theorems": [
    "FakeIt.MoveOnly.C71_which_methods_can_be_mocked",
    "FakeIt.MoveOnly.C71_move_only_arguments_can_be_mocked_partial",
    "FakeIt.MoveOnly.C71_spy_accepts_what_can_be_copied_partial",
    "FakeIt.MoveOnly.C71_spied_arguments_can_be_copied",
    "FakeIt.MoveOnly.C71_hidden_containers_cannot_be_mocked"
   ],
   "note": "Proved for parameters without hidden containers of things that cannot be copied (containers other than vectors, or vectors inside classes); false for those (C71_hidden_containers_cannot_be_mocked). Exactly which methods can be mocked: C71_which_methods_can_be_mocked."
  },
  {
   "property": "C72",
   "status": "proved",
   "theorems": [
    "FakeIt.C72_library_refines_reentrant_mock",
    "FakeIt.C72_extends_the_plain_mock",
    "FakeIt.C72_depth_does_not_matter",
    "FakeIt.C72_fate_of_the_described_programs",
    "FakeIt.C72_undefined_is_undefined",
    "FakeIt.C72_reentrant_mock_covers_library",
    "FakeIt.C72_depth_does_not_matter_for_fates"
   ],
   "note": "Simulation: the state in the middle of nested calls is related to the abstract state as if all calls in progress had been finished. The exclusions named in the statement (see C06 for what happens there) are results none of the abstract machine. Named, Writes and counter bounds as in C56. C72_extends_the_plain_mock and C72_depth_does_not_matter relate the description to that of C56 and show that its recursion bound is immaterial. Converse: fRun (Spec/ReentrantFate.lean) has the same results (C72_fate_of_the_described_programs) and says why there is none; C72_undefined_is_undefined: where it says undefined, the library has undefined behaviour, for every fuel; hence C72_reentrant_mock_covers_library. Nothing is claimed for programs it calls outside (the exclusions; see C06)."
  },
  {
   "property": "C73",
   "status": "partial",
   "theorems": [
    "FakeIt.C73_threads_behave_like_turns_partial",
    "FakeIt.C73_the_rest_is_as_after_turns_partial",
    "FakeIt.C73_no_two_threads_in_one_method",
    "FakeIt.C73_same_method_not_like_turns"
   ],
   "note": "Proved for threads that call different methods (any mocks, any interleaving of the model's steps), together with everything the test does after joining them; C73_same_method_not_like_turns shows that the full claim (any threads) is false for the real code. Not covered: callbacks that use mocks, reference arguments; stubbing and verification while threads run is C87."
  },
  {
   "property": "C74",
   "status": "partial",
   "theorems": [
    "FakeIt.Naming.C74_prototype_names_the_method",
    "FakeIt.Naming.C74_prototype_refused",
    "FakeIt.Naming.C74_method_names_the_method_partial",
    "FakeIt.Naming.C74_single_method_named",
    "FakeIt.Naming.C74_method_guesses",
    "FakeIt.Naming.C74_nameable",
    "FakeIt.Naming.C74_volatile_overloads_not_nameable",
    "FakeIt.Naming.C74_stands_for_one"
   ],
   "note": "The macros with a prototype: proved in full. Method: exact characterisation; C74_method_guesses and C74_volatile_overloads_not_nameable show that the natural claim fails for some overload sets. Single inheritance only."
  },
  {
   "property": "C75",
   "status": "partial",
   "theorems": [
    "FakeIt.Kept.C75_defined_tests_behave_like_values",
    "FakeIt.Kept.C75_careful_tests_are_defined_partial",
    "FakeIt.Kept.C75_careless_tests_are_undefined"
   ],
   "note": "C75_defined_tests_behave_like_values: whenever the test has defined behaviour it does what it means. C75_careful_tests_are_defined_partial: it is defined if everything kept is made from variables. C75_careless_tests_are_undefined: keeping a stubbing, a verification, a sequence or a reference made on the spot and using it is undefined behaviour, so the natural claim fails."
  },
  {
   "property": "C76",
   "status": "partial",
   "theorems": [
    "FakeIt.Copies.C76_two_copies_cannot_end",
    "FakeIt.Copies.C76_a_copy_takes_the_fake_object_away",
    "FakeIt.Copies.C76_a_copy_takes_the_stubbings_away",
    "FakeIt.Copies.C76_new_methods_of_copies_are_undefined",
    "FakeIt.Copies.C76_stubbing_through_a_copy_may_be_lost",
    "FakeIt.Copies.C76_copies_are_one_mock_partial"
   ],
   "note": "False in the code: C76_two_copies_cannot_end (ending two copies is undefined in every test), C76_a_copy_takes_the_fake_object_away, C76_a_copy_takes_the_stubbings_away (after the first end the others have lost everything), C76_new_methods_of_copies_are_undefined, C76_stubbing_through_a_copy_may_be_lost. C76_copies_are_one_mock_partial: it holds for tests that never end or reset a copied mock and ask copies only for methods they know."
  },
  {
   "property": "C77",
   "status": "partial",
   "theorems": [
    "FakeIt.Guards.C77_guards_take_effect_at_the_end_partial",
    "FakeIt.Guards.C77_moved_guards_terminate",
    "FakeIt.Guards.C77_throwing_clauses_terminate"
   ],
   "note": "C77_guards_take_effect_at_the_end_partial: holds when all hand-over steps are elided and no clause throws. C77_moved_guards_terminate: a guard that is really moved ends the program, so the claim fails for compilers that move (allowed before C++17). C77_throwing_clauses_terminate: so does a clause that throws (running out of memory while advancing a script)."
  },
  {
   "property": "C78",
   "status": "partial",
   "theorems": [
    "FakeIt.Rtti.C78_full_lists_give_the_compilers_description",
    "FakeIt.Rtti.C78_casts_as_for_a_real_object_partial",
    "FakeIt.Rtti.C78_unlisted_bases_cannot_be_cast",
    "FakeIt.Rtti.C78_no_information_for_64_bits",
    "FakeIt.Rtti.C78_which_lists_compile"
   ],
   "note": "C78_casts_as_for_a_real_object_partial: for the Itanium layout with any list of bases, and for 32 bits with all bases listed (C78_full_lists_give_the_compilers_description). C78_unlisted_bases_cannot_be_cast and C78_no_information_for_64_bits: the claim fails otherwise. The searches of the run-time libraries are outside the repository and modelled from their published behaviour; multiple and virtual inheritance are not modelled."
  },
  {
   "property": "C79",
   "status": "partial",
   "theorems": [
    "FakeIt.Verifying.C79_verification_sees_the_history_as_it_was_partial",
    "FakeIt.Verifying.C79_no_other_invocations_partial",
    "FakeIt.Verifying.C79_predicates_may_change_the_record",
    "FakeIt.Verifying.C79_predicates_cannot_clear",
    "FakeIt.Verifying.C79_source_predicates_cannot_call_their_method",
    "FakeIt.Verifying.C79_source_predicates_may_add_calls",
    "FakeIt.Verifying.C79_source_predicates_may_clear_and_throw",
    "FakeIt.Verifying.C79_predicates_cannot_clear_and_look",
    "FakeIt.Verifying.C79_verifications_end"
   ],
   "note": "C79_verifications_end: every verification ends, whatever predicates do. C79_verification_sees_the_history_as_it_was_partial and C79_no_other_invocations_partial: predicates of the pattern neither assign nor clear, predicates of method expressions used as sources only look or throw. C79_source_predicates_cannot_call_their_method and C79_predicates_cannot_clear: undefined behaviour otherwise; C79_predicates_may_change_the_record and C79_source_predicates_may_add_calls: the judgement changes otherwise."
  },
  {
   "property": "C80",
   "status": "partial",
   "theorems": [
    "FakeIt.C80_always_callbacks_may_end_their_mock_partial",
    "FakeIt.C80_counted_callbacks_may_end_their_mock_partial",
    "FakeIt.C80_last_use_is_undefined",
    "FakeIt.C80_no_more_actions_after_the_end_is_undefined",
    "FakeIt.C80_callbacks_may_not_end_their_mock"
   ],
   "note": "C80_always_callbacks_may_end_their_mock_partial (AlwaysDo, assigned lambdas) and C80_counted_callbacks_may_end_their_mock_partial (counted, not in the last use, no calls before the end): the call ends as the callback did. C80_callbacks_may_not_end_their_mock: the code violates the rest; C80_last_use_is_undefined: in the last use it is undefined behaviour whatever the callback does after the reset; C80_no_more_actions_after_the_end_is_undefined. Programs with such callbacks are also described by the abstract mock of C72."
  },
  {
   "property": "C81",
   "status": "partial",
   "theorems": [
    "FakeIt.Handlers.C81_events_are_delivered_partial",
    "FakeIt.Handlers.C81_delivery_does_not_depend_on_the_bound",
    "FakeIt.Handlers.C81_everybody_is_told",
    "FakeIt.Handlers.C81_nobody_is_told_after_an_exception",
    "FakeIt.Handlers.C81_settings_last",
    "FakeIt.Handlers.C81_unexpected_calls_throw",
    "FakeIt.Handlers.C81_ranked_events_end",
    "FakeIt.Handlers.C81_quiet_handlers_are_defined_partial",
    "FakeIt.Handlers.C81_same_event_again_never_ends",
    "FakeIt.Handlers.C81_same_event_again_by_the_adapter_never_ends",
    "FakeIt.Handlers.C81_registering_inside_is_undefined",
    "FakeIt.Handlers.C81_no_delivery_goes_on_after_registering",
    "FakeIt.Handlers.C81_simple_handlers"
   ],
   "note": "C81_events_are_delivered_partial is an equivalence with the specification for deliveries that are not undefined; C81_quiet_handlers_are_defined_partial: defined if no handler changes who listens. C81_registering_inside_is_undefined: changing who listens, even inside of a nested event whose exception was caught, is undefined behaviour once the outer delivery goes on. C81_same_event_again_never_ends: a handler that causes the event it is told of recurs for ever."
  },
  {
   "property": "C82",
   "status": "partial",
   "theorems": [
    "FakeIt.C82_every_call_ends",
    "FakeIt.C82_first_exception_reaches_the_caller",
    "FakeIt.C82_without_exceptions",
    "FakeIt.C82_unrecorded_calls_leave_no_trace",
    "FakeIt.C82_exceptions_of_the_user_are_safe_partial",
    "FakeIt.C82_out_of_memory_may_unfake",
    "FakeIt.C82_out_of_memory_may_terminate",
    "FakeIt.C82_nothing_leaks"
   ],
   "note": "C82_every_call_ends lists all ways a call may end, without hypotheses on what throws; C82_nothing_leaks and C82_first_exception_reaches_the_caller hold for everything that throws. That the method stays faked and the program goes on is proved if no allocation fails (C82_exceptions_of_the_user_are_safe_partial) and false otherwise: C82_out_of_memory_may_unfake (the table entry is swapped before the object that restores it has its memory), C82_out_of_memory_may_terminate (an allocation in a destructor)."
  },
  {
   "property": "C83",
   "status": "partial",
   "theorems": [
    "FakeIt.Building.C83_without_exceptions",
    "FakeIt.Building.C83_first_exception_reaches_the_test",
    "FakeIt.Building.C83_out_of_memory_deletes_twice",
    "FakeIt.Building.C83_user_exceptions_leave_nothing_partial",
    "FakeIt.Building.C83_matchers_are_lost",
    "FakeIt.Building.C83_a_failed_statement_can_be_repeated"
   ],
   "note": "C83_without_exceptions, C83_first_exception_reaches_the_test and C83_out_of_memory_deletes_twice together say how every statement ends. The claim about what is left is false: C83_matchers_are_lost (the matchers of the arguments before the one whose copy throws), and C83_out_of_memory_deletes_twice refutes the claim that nothing is destroyed twice. Proved in full for exceptions of the user with at most one argument of Using: C83_user_exceptions_leave_nothing_partial."
  },
  {
   "property": "C84",
   "status": "partial",
   "theorems": [
    "FakeIt.Several.C84_without_exceptions",
    "FakeIt.Several.C84_first_exception_reaches_the_test",
    "FakeIt.Several.C84_out_of_memory_deletes_twice",
    "FakeIt.Several.C84_user_exceptions_stub_nothing",
    "FakeIt.Several.C84_all_or_nothing_partial",
    "FakeIt.Several.C84_earlier_methods_stay_stubbed"
   ],
   "note": "C84_without_exceptions, C84_first_exception_reaches_the_test and C84_out_of_memory_deletes_twice together say how every statement ends. All or nothing is false for two methods or more: C84_earlier_methods_stay_stubbed; it holds for exceptions of the user (C84_user_exceptions_stub_nothing) and for statements on one method (C84_all_or_nothing_partial)."
  },
  {
   "property": "C85",
   "status": "partial",
   "theorems": [
    "FakeIt.Checking.C85_first_exception_reaches_the_test",
    "FakeIt.Checking.C85_nothing_is_lost_partial",
    "FakeIt.Checking.C85_out_of_memory_loses_objects",
    "FakeIt.Checking.C85_an_interrupted_verification_can_be_repeated",
    "FakeIt.Checking.C85_conversions_partial",
    "FakeIt.Checking.C85_bool_exceptions_are_taken_for_the_answer",
    "FakeIt.Checking.C85_an_interrupted_conversion_counts_as_passed"
   ],
   "note": "C85_first_exception_reaches_the_test and C85_an_interrupted_verification_can_be_repeated hold for every statement; which calls are marked is determined exactly (the first places where the pattern occurs). Nothing is lost (C85_nothing_is_lost_partial) except when the reference count of the expectation cannot be allocated (C85_out_of_memory_loses_objects). Conversions: C85_conversions_partial; an exception of type bool becomes the answer (C85_bool_exceptions_are_taken_for_the_answer) and after an interrupted conversion the kept verification counts as passed (C85_an_interrupted_conversion_counts_as_passed)."
  },
  {
   "property": "C86",
   "status": "proved",
   "theorems": [
    "FakeIt.Functors.C86_functions_are_values",
    "FakeIt.Functors.C86_undefined_iff",
    "FakeIt.Functors.C86_lifetimes",
    "FakeIt.Functors.C86_nothing_left",
    "FakeIt.Functors.C86_own_objects_untouched",
    "FakeIt.Functors.C86_calls_see_the_copy",
    "FakeIt.Functors.C86_verify_twice"
   ],
   "note": "C86_functions_are_values: every program is answered as by a mock in which functions are values; C86_undefined_iff: it is undefined only by an operation of the test on something whose life is over. C86_lifetimes and C86_nothing_left: what exists and that everything else was destroyed once. C86_own_objects_untouched, C86_calls_see_the_copy, C86_verify_twice: what this means for the test. One method of one mock; function objects whose code uses mocks are not modelled here (see C72)."
  },
  {
   "property": "C87",
   "status": "partial",
   "theorems": [
    "FakeIt.Races.C87_compatible_threads_never_race_partial",
    "FakeIt.Races.C87_as_if_alone_partial",
    "FakeIt.Races.C87_alone_answers",
    "FakeIt.Races.C87_different_mocks_never_race",
    "FakeIt.Races.C87_holding_verifications_do_not_race",
    "FakeIt.Races.C87_race_free_iff",
    "FakeIt.Races.C87_clashing_operations_race",
    "FakeIt.Races.C87_different_methods_can_race",
    "FakeIt.Races.C87_settled"
   ],
   "note": "C87_different_mocks_never_race is complete for different mocks. C87_compatible_threads_never_race_partial and C87_as_if_alone_partial: operations on one mock that go together, and the results, which are those of a mock without memory locations (also C87_alone_answers for one thread). C87_holding_verifications_do_not_race: verifications of different known methods. C87_clashing_operations_race, C87_different_methods_can_race: the operations on one mock that race, so the claim is false for different methods of one mock. C87_race_free_iff: what it means that threads never race. C87_settled: the memory these are about is what any use by one thread gives. Not covered: verifications that fail beside others, VerifyNoOtherInvocations beside stubbing or a clear, calls that no stubbing accepts beside verifications."
  },
  {
   "property": "C88",
   "status": "partial",
   "theorems": [
    "FakeIt.Inside.C88_events_are_about_values",
    "FakeIt.Inside.C88_handlers_that_delete_nothing_partial",
    "FakeIt.Inside.C88_clearing_spoils_the_report",
    "FakeIt.Inside.C88_resetting_spoils_the_call",
    "FakeIt.Inside.C88_clearing_is_harmless_for_unexpected_calls",
    "FakeIt.Inside.C88_calls_of_unknown_methods_survive_a_reset",
    "FakeIt.Inside.C88_resetting_changes_the_report",
    "FakeIt.Inside.C88_listeners_may_stub_what_is_missing",
    "FakeIt.Inside.C88_assertions_come_before_the_adapter"
   ],
   "note": "C88_events_are_about_values says exactly what every test sees, undefined behaviour included. C88_handlers_that_delete_nothing_partial: the claim holds for handlers and tests that delete nothing; also C88_clearing_is_harmless_for_unexpected_calls, C88_calls_of_unknown_methods_survive_a_reset, C88_listeners_may_stub_what_is_missing, C88_assertions_come_before_the_adapter. False otherwise: C88_clearing_spoils_the_report, C88_resetting_spoils_the_call, C88_resetting_changes_the_report. Handlers that change the listeners or the adapter are C81."
  },
  {
   "property": "C89",
   "status": "partial",
   "theorems": [
    "FakeIt.Printing.C89_texts_of_builtin_types",
    "FakeIt.Printing.C89_what_compiles",
    "FakeIt.Printing.C89_wide_characters_do_not_compile",
    "FakeIt.Printing.C89_undefined_exactly",
    "FakeIt.Printing.C89_values_are_printed_partial",
    "FakeIt.Printing.C89_byte_buffers_are_read_as_text",
    "FakeIt.Printing.C89_question_mark",
    "FakeIt.Printing.C89_own_operators_are_used",
    "FakeIt.Printing.C89_conversions_are_used",
    "FakeIt.Printing.C89_numbers_and_pointers_are_ambiguous",
    "FakeIt.Printing.C89_functions_print_alike"
   ],
   "note": "Exact: C89_texts_of_builtin_types, C89_what_compiles, C89_undefined_exactly, C89_question_mark; C89_values_are_printed_partial is the claim with the restrictions it needs; C89_own_operators_are_used, C89_conversions_are_used and C89_numbers_and_pointers_are_ambiguous for classes. False otherwise: C89_wide_characters_do_not_compile, C89_byte_buffers_are_read_as_text, C89_functions_print_alike. Overload resolution is the language's and is part of the model as far as << needs it."
  },
  {
   "property": "C90",
   "status": "proved",
   "theorems": [
    "FakeIt.OneThread.C90_one_thread_agrees",
    "FakeIt.OneThread.C90_threads_agree"
   ],
   "note": "C90_one_thread_agrees relates the operations as accesses to memory (the model of C87) to the model of the whole library, for every program of steps; C90_threads_agree adds C87: threads whose operations go together. Rests on C56 and C87."
  },
  {
   "property": "C91",
   "status": "partial",
   "theorems": [
    "FakeIt.Owners.C91_exactly",
    "FakeIt.Owners.C91_the_last_owner_calls_the_destructor",
    "FakeIt.Owners.C91_destructor_without_action_terminates",
    "FakeIt.Owners.C91_verifying_the_destructor_mocks_it",
    "FakeIt.Owners.C91_mocks_that_own_their_objects_can_end",
    "FakeIt.Owners.C91_mocks_that_own_their_objects_cannot_be_reset",
    "FakeIt.Owners.C91_reset_forgets_everything",
    "FakeIt.Owners.C91_owners_must_not_outlive_the_object",
    "FakeIt.Owners.C91_clear_forgets_everything_partial",
    "FakeIt.Owners.C91_clear_may_leave_a_call_of_the_destructor",
    "FakeIt.Owners.C91_records_of_earlier_mocks_must_not_own_later_objects"
   ],
   "note": "C91_exactly: the model with counts and an order of destruction agrees with a specification that has neither. C91_the_last_owner_calls_the_destructor and C91_mocks_that_own_their_objects_can_end are the claim for variables and for the end of mocks; C91_reset_forgets_everything is resetting; C91_clear_forgets_everything_partial is clearing when the object is owned elsewhere, too; C91_verifying_the_destructor_mocks_it is what merely naming the destructor does. False otherwise: C91_mocks_that_own_their_objects_cannot_be_reset, C91_clear_may_leave_a_call_of_the_destructor, C91_owners_must_not_outlive_the_object, C91_records_of_earlier_mocks_must_not_own_later_objects, C91_destructor_without_action_terminates."
  },
  {
   "property": "C92",
   "status": "proved",
   "theorems": [
    "FakeIt.Checking.C92_uninterrupted_verifications_are_the_librarys",
    "FakeIt.Checking.C92_interrupted_verifications_are_repeated_as_in_the_library",
    "FakeIt.Checking.C92_uninterrupted_conversions_are_the_librarys"
   ],
   "note": "The two models of verification (the one with exceptions, C85, and the one of the whole library, C56) agree: C92_uninterrupted_verifications_are_the_librarys, C92_uninterrupted_conversions_are_the_librarys; C92_interrupted_verifications_are_repeated_as_in_the_library for verifications that an exception interrupted."
  },
  {
   "property": "C93",
   "status": "proved",
   "theorems": [
    "FakeIt.C93_an_interrupted_call_is_made_or_not",
    "FakeIt.C93_uninterrupted_calls_are_the_librarys",
    "FakeIt.C93_interrupted_calls_are_made_or_not",
    "FakeIt.C93_interrupted_stubbings_are_made_or_not"
   ],
   "note": "The models of calls with exceptions (C82) and of stubbing statements with exceptions (C83) are related to the model of the whole library (C56): C93_an_interrupted_call_is_made_or_not, C93_uninterrupted_calls_are_the_librarys, C93_interrupted_calls_are_made_or_not, C93_interrupted_stubbings_are_made_or_not. Allocations that fail are excluded: in calls (hypothesis Enough), and where C83 shows undefined behaviour in statements (hypothesis that the statements end)."
  },
  {
   "property": "C94",
   "status": "proved",
   "theorems": [
    "FakeIt.C94_statements_on_several_methods_are_separate_statements",
    "FakeIt.C94_interrupted_statements_stub_the_first_methods",
    "FakeIt.C94_user_exceptions_stub_nothing"
   ],
   "note": "C94_statements_on_several_methods_are_separate_statements is about the model of the whole library; C94_interrupted_statements_stub_the_first_methods and C94_user_exceptions_stub_nothing relate the model of exceptions in such statements (C84) to it. Statements where the library deletes something twice (C84) are excluded by the hypothesis that the statement ends."
  },
  {
   "property": "C95",
   "status": "proved",
   "theorems": [
    "FakeIt.C95_how_scripts_are_written_does_not_matter"
   ],
   "note": "C95_how_scripts_are_written_does_not_matter, through the refinement C56: writing out all scripts commutes with every step of the abstract mock."
  },
  {
   "property": "C96",
   "status": "partial",
   "theorems": [
    "FakeIt.C96_tests_that_run_written_out_run_as_written_partial",
    "FakeIt.C96_writing_does_not_matter_if_callbacks_keep_mocks_partial",
    "FakeIt.C96_writing_out_can_break_tests"
   ],
   "note": "Refuted by C96_writing_out_can_break_tests: a callback that destroys its own mock works with Do(2_Times(g)) and is undefined behaviour with Do(g, g). Proved: a test that runs with everything written out runs as written, with the same results (C96_tests_that_run_written_out_run_as_written_partial); if callbacks do not reset or destroy mocks, all ways of writing are the same (C96_writing_does_not_matter_if_callbacks_keep_mocks_partial)."
  },
  {
   "property": "C97",
   "status": "proved",
   "theorems": [
    "FakeIt.C97_stubbings_of_different_methods_commute",
    "FakeIt.C97_stubbings_of_one_method_do_not_commute"
   ],
   "note": "C97_stubbings_of_different_methods_commute, through the refinement C56: exchanging the names of the two stubbings is a homomorphism of the abstract mock; C97_stubbings_of_one_method_do_not_commute shows that the hypothesis is needed."
  },
  {
   "property": "C98",
   "status": "proved",
   "theorems": [
    "FakeIt.C98_stubbing_can_be_made_later",
    "FakeIt.C98_stubbing_can_be_made_earlier",
    "FakeIt.C98_stubbing_cannot_be_moved_across_own_calls"
   ],
   "note": "C98_stubbing_can_be_made_later and C98_stubbing_can_be_made_earlier, through the refinement C56; C98_stubbing_cannot_be_moved_across_own_calls shows that the hypothesis is needed."
  },
  {
   "property": "C99",
   "status": "proved",
   "theorems": [
    "FakeIt.C99_unused_stubbing_changes_nothing",
    "FakeIt.C99_used_stubbing_matters"
   ],
   "note": "C99_unused_stubbing_changes_nothing, through the refinement C56: changing the stubbings of a method that is not called is a homomorphism of the abstract mock; C99_used_stubbing_matters shows that the hypothesis is needed."
  },
  {
   "property": "C100",
   "status": "proved",
   "theorems": [
    "FakeIt.C100_older_stubbings_are_hidden",
    "FakeIt.C100_narrower_stubbings_do_not_hide"
   ],
   "note": "C100_older_stubbings_are_hidden, a case of C99_unused_stubbing_changes_nothing: below a stubbing that accepts everything the older ones are never chosen (run_hidden); C100_narrower_stubbings_do_not_hide shows that the hypothesis is needed."
  },
  {
   "property": "C101",
   "status": "proved",
   "theorems": [
    "FakeIt.C101_checks_that_only_look",
    "FakeIt.C101_passing_checks_do_more"
   ],
   "note": "C101_checks_that_only_look: in the abstract mock such a check leaves exactly the state after evaluating its method expressions (looks, run_glances), transferred to the library by C56; C101_passing_checks_do_more shows that the hypothesis is needed."
  },
  {
   "property": "C102",
   "status": "proved",
   "theorems": [
    "FakeIt.C102_checks_that_can_be_left_out",
    "FakeIt.C102_first_checks_matter"
   ],
   "note": "C102_checks_that_can_be_left_out: in the abstract mock a named method stays named until its mock is reset or destroyed (run_kept, seen_known), and naming it again changes nothing (mentionAll_known), transferred to the library by C56; C102_first_checks_matter shows that the hypothesis is needed."
  }
 ]
}