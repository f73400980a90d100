{
 "claims": [
  {
   "property": "C01",
   "status": "partial",
   "theorems": [
    "BVariant.C01_never_empty_partial",
    "BVariant.C01_never_empty_single_storage_partial",
    "BVariant.C01_several_types_partial",
    "BVariant.C01_statement_several_types_partial",
    "BVariant.C01_counterexample_backup_source",
    "BVariant.C01_counterexample_backup_source_ndebug",
    "BVariant.C01_counterexample_backup_swap",
    "BVariant.C01_counterexample_copy_only",
    "BVariant.C01_counterexample_fallback_ctor",
    "BVariant.C01_never_empty_asserted_partial",
    "BVariant.C01_with_conversions_partial",
    "BVariant.C01_statement_with_conversions_partial",
    "BVariant.C59_never_empty_partial",
    "BVariant.C59_never_empty_single_storage_partial",
    "BVariant.C01_statement_with_conversions_asserted_partial",
    "BVariant.C60_never_empty_iff"
   ],
   "note": "False as stated (findings F1, F2, F10: counterexamples proved). Proved for every program outside these findings, and for every program whatsoever over single-storage variants. Also for programs whose variables are of any number of variant types. With assertions on, every program whatsoever over variants outside F2 and F10 ends with no variant empty or stops at the failed assertion of an F1 statement. Also with conversions between variables of different variant types among the statements. Programs with control flow, exceptions and scopes: C59. C01_statement_with_conversions_asserted_partial: the same with assertions on, for every statement, conversions included. C60 proves that the conditions are necessary as well."
  },
  {
   "property": "C02",
   "status": "proved",
   "theorems": [
    "BVariant.C02_which_survives_backup",
    "BVariant.C02_mark_backup_idempotent"
   ],
   "note": "Unbounded which_; C03 covers the fixed-width representations."
  },
  {
   "property": "C03",
   "status": "proved",
   "theorems": [
    "BVariant.C03_signed_char_discriminator",
    "BVariant.C03_selected_width_suffices"
   ],
   "note": "BitVec 8 and 32, every index."
  },
  {
   "property": "C04",
   "status": "proved",
   "theorems": [
    "BVariant.C04_dispatch",
    "BVariant.C04_dispatch_once",
    "BVariant.C04_dispatch_out_of_range"
   ],
   "note": "Any list, index and unrolling limit."
  },
  {
   "property": "C05",
   "status": "partial",
   "theorems": [
    "BVariant.C05_fallback_exists_iff",
    "BVariant.C05_fallback_nothrow",
    "BVariant.C05_fallback_choice_partial",
    "BVariant.C05_fallback_choice_intended",
    "BVariant.C05_blank_not_preferred"
   ],
   "note": "The preference for boost::blank is false for the code as written (finding F3): the negation is proved, together with the exact choice the code makes and the choice it would make if the predicate saw the element."
  },
  {
   "property": "C06",
   "status": "proved",
   "theorems": [
    "BVariant.C06_bounded_types_fit",
    "BVariant.C06_backup_holder_fits",
    "BVariant.C06_no_slack",
    "BVariant.C06_backups_have_room",
    "BVariant.C06_contents_have_room"
   ],
   "note": "For every list of layouts with positive alignments. C06_backups_have_room holds for any program in any configuration, C06_contents_have_room for any state between statements."
  },
  {
   "property": "C07",
   "status": "proved",
   "theorems": [
    "BVariant.C07_copy_construction"
   ],
   "note": "Stated for every state between statements (Good) of any configuration; that every program stays in such states is C01's subject."
  },
  {
   "property": "C08",
   "status": "proved",
   "theorems": [
    "BVariant.C08_move_construction"
   ],
   "note": "Stated for every state between statements (Good) of any configuration; that every program stays in such states is C01's subject."
  },
  {
   "property": "C09",
   "status": "partial",
   "theorems": [
    "BVariant.C09_copy_assignment_partial",
    "BVariant.C09_copy_assignment_value_partial",
    "BVariant.C09_counterexample_backup_source",
    "BVariant.C67_assigned_value_iff"
   ],
   "note": "Stated for every state between statements (Good) of any configuration; that every program stays in such states is C01's subject. Proved with assertions on (where F1 cannot return normally), and with assertions off when the assignment is not of the F1 kind; the unrestricted claim is false with assertions off (counterexample). Exactly for which bounded types the claim holds is C67_assigned_value_iff (C67)."
  },
  {
   "property": "C10",
   "status": "partial",
   "theorems": [
    "BVariant.C10_move_assignment_partial",
    "BVariant.C10_move_assignment_value_partial",
    "BVariant.C09_counterexample_backup_source",
    "BVariant.C67_assigned_value_iff"
   ],
   "note": "Stated for every state between statements (Good) of any configuration; that every program stays in such states is C01's subject. Scope as for C09. Exactly for which bounded types the claim holds is C67_assigned_value_iff (C67)."
  },
  {
   "property": "C11",
   "status": "partial",
   "theorems": [
    "BVariant.C11_copy_assignment_rolled_back_partial",
    "BVariant.C11_move_assignment_rolled_back_partial",
    "BVariant.C11_counterexample_copy_only",
    "BVariant.C11_value_assignment_rolled_back_partial",
    "BVariant.C11_content_assignment_rolled_back_partial",
    "BVariant.C67_strong_guarantee_iff"
   ],
   "note": "Stated for every state between statements (Good) of any configuration; that every program stays in such states is C01's subject. Proved outside finding F2, where the claim is false (counterexample). Exactly for which bounded types the claim holds is C67_strong_guarantee_iff (C67)."
  },
  {
   "property": "C12",
   "status": "partial",
   "theorems": [
    "BVariant.C12_copy_assignment_fallback_partial",
    "BVariant.C12_move_assignment_fallback_partial",
    "BVariant.C12_counterexample_fallback_ctor",
    "BVariant.C12_value_assignment_fallback_partial",
    "BVariant.C12_content_assignment_fallback_partial",
    "BVariant.C67_fallback_iff"
   ],
   "note": "Stated for every state between statements (Good) of any configuration; that every program stays in such states is C01's subject. Proved outside finding F10, where the claim is false (counterexample). Exactly for which bounded types the claim holds is C67_fallback_iff (C67)."
  },
  {
   "property": "C13",
   "status": "partial",
   "theorems": [
    "BVariant.C13_ownership_partial",
    "BVariant.C01_several_types_partial",
    "BVariant.C13_ownership_asserted_partial",
    "BVariant.C01_with_conversions_partial",
    "BVariant.C59_nothing_left_partial"
   ],
   "note": "Same scope as C01; double destruction and use after destruction are faults, so they are excluded by the run not faulting. With assertions on, all programs: they end with that, or stop at the failed assertion of an F1 statement. Programs with several variant types and conversions between them are included. Exactly for which bounded types it holds for all programs is C71_leak_free_iff (C71)."
  },
  {
   "property": "C14",
   "status": "partial",
   "theorems": [
    "BVariant.C14_exceptions_come_from_elements",
    "BVariant.C14_returns_unless_thrown_partial",
    "BVariant.C14_returns_unless_thrown_asserted_partial",
    "BVariant.C40_in_programs_construction",
    "BVariant.C40_in_programs_assignment"
   ],
   "note": "First half for every state and statement. Second half outside finding F1 (where an assertion fails although nothing throws). With assertions on, all statements: the only other end is the failed assertion of an F1 statement; never std::terminate or undefined behaviour. Conversions between variant types: always return or throw what an operation of an element threw. C14_exceptions_come_from_elements also says that the operation is not declared nothrow. Exactly for which bounded types it holds for all programs is C71_safe_iff (C71)."
  },
  {
   "property": "C15",
   "status": "partial",
   "theorems": [
    "BVariant.C15_copy_assignment_throws",
    "BVariant.C15_move_assignment_throws",
    "BVariant.C15_copy_assignment_documented_partial",
    "BVariant.C15_move_assignment_documented_partial",
    "BVariant.C15_counterexample_backup_copy",
    "BVariant.C15_value_assignment_throws",
    "BVariant.C15_content_assignment_throws",
    "BVariant.C67_throws_iff"
   ],
   "note": "Stated for every state between statements (Good) of any configuration; that every program stays in such states is C01's subject. All exceptions that can occur are characterised; the documented clause holds where stated and is false otherwise (finding F6, counterexample). Exactly for which bounded types the claim holds is C67_throws_iff (C67)."
  },
  {
   "property": "C16",
   "status": "proved",
   "theorems": [
    "BVariant.C16_move_construction_noexcept"
   ],
   "note": "Stated for every state between statements (Good) of any configuration; that every program stays in such states is C01's subject."
  },
  {
   "property": "C17",
   "status": "proved",
   "theorems": [
    "BVariant.C17_move_assignment_noexcept"
   ],
   "note": "Stated for every state between statements (Good) of any configuration; that every program stays in such states is C01's subject."
  },
  {
   "property": "C18",
   "status": "proved",
   "theorems": [
    "BVariant.C18_single_storage",
    "BVariant.C18_single_storage_no_fault",
    "BVariant.C60_backups_iff"
   ],
   "note": "All programs, all three conditions. C60_backups_iff gives the exact condition, of which the three documented ones are special cases."
  },
  {
   "property": "C19",
   "status": "partial",
   "theorems": [
    "BVariant.C19_copy_assignment_in_place_partial",
    "BVariant.C19_move_assignment_in_place_partial",
    "BVariant.C19_counterexample_same_type",
    "BVariant.C19_value_assignment_in_place_partial",
    "BVariant.C19_counterexample_value_assignment",
    "BVariant.C19_content_assignment_in_place_partial",
    "BVariant.C67_in_place_iff"
   ],
   "note": "Stated for every state between statements (Good) of any configuration; that every program stays in such states is C01's subject. The claim is false exactly in the case of finding F7 (counterexample). Exactly for which bounded types the claim holds is C67_in_place_iff (C67)."
  },
  {
   "property": "C20",
   "status": "partial",
   "theorems": [
    "BVariant.C20_swap_exchanges_partial",
    "BVariant.C20_swap_exchanges_values_partial",
    "BVariant.C20_self_swap",
    "BVariant.C20_counterexample_backup_swap"
   ],
   "note": "Stated for every state between statements (Good) of any configuration; that every program stays in such states is C01's subject. Proved with assertions on, and with assertions off when the swap does not run into finding F1 (there the claim is false, counterexample). Exactly for which bounded types the claim holds is C70_exchange_iff (C70)."
  },
  {
   "property": "C21",
   "status": "partial",
   "theorems": [
    "BVariant.C21_swap_failure_partial",
    "BVariant.C21_counterexample_backup_swap",
    "BVariant.C21_swap_failure_not_strong"
   ],
   "note": "Stated for every state between statements (Good) of any configuration; that every program stays in such states is C01's subject. Proved outside findings F1, F2 and F10 (counterexample); C21_swap_failure_not_strong shows that no more than the basic guarantee holds. For which bounded types swap has the strong guarantee is C70_strong_iff (C70)."
  },
  {
   "property": "C22",
   "status": "proved",
   "theorems": [
    "BVariant.C22_value_assignment_held_type",
    "BVariant.C22_value_assignment_new_type",
    "BVariant.C22_value_assignment_converted",
    "BVariant.C22_value_assignment_value"
   ],
   "note": "Stated for every state between statements (Good) of any configuration; that every program stays in such states is C01's subject."
  },
  {
   "property": "C23",
   "status": "proved",
   "theorems": [
    "BVariant.C23_failed_conversion"
   ],
   "note": "Stated for every state between statements (Good) of any configuration; that every program stays in such states is C01's subject."
  },
  {
   "property": "C24",
   "status": "proved",
   "theorems": [
    "BVariant.C24_self_copy_assignment_runs",
    "BVariant.C24_self_move_assignment_runs",
    "BVariant.C24_self_swap_runs",
    "BVariant.C24_self_copy_assignment",
    "BVariant.C24_self_move_assignment",
    "BVariant.C24_self_swap"
   ],
   "note": "Stated for every state between statements (Good) of any configuration; that every program stays in such states is C01's subject."
  },
  {
   "property": "C25",
   "status": "proved",
   "theorems": [
    "BVariant.C25_equality_runs",
    "BVariant.C25_equality_result",
    "BVariant.C25_equality_equivalence",
    "BVariant.C25_equality_symmetric",
    "BVariant.C26_comparison_exceptions"
   ],
   "note": "Stated for every state between statements (Good) of any configuration; that every program stays in such states is C01's subject. Exceptions: C26_comparison_exceptions."
  },
  {
   "property": "C26",
   "status": "proved",
   "theorems": [
    "BVariant.C26_less_runs",
    "BVariant.C26_less_strict_weak",
    "BVariant.C26_less_lexicographic",
    "BVariant.C26_less_total",
    "BVariant.C26_less_equal_exclusive",
    "BVariant.C26_derived_operators",
    "BVariant.C26_comparison_exceptions"
   ],
   "note": "Stated for every state between statements (Good) of any configuration; that every program stays in such states is C01's subject. C26_comparison_exceptions: for element operators that are any code, which calls are made and which exceptions come out."
  },
  {
   "property": "C27",
   "status": "proved",
   "theorems": [
    "BVariant.C27_hash_result",
    "BVariant.C27_equal_variants_equal_hashes",
    "BVariant.C27_hash_distinguishes_types",
    "BVariant.C27_hash_runs"
   ],
   "note": "Stated for every state between statements (Good) of any configuration; that every program stays in such states is C01's subject. C27_hash_runs: for hash functions of elements that are any code."
  },
  {
   "property": "C28",
   "status": "proved",
   "theorems": [
    "BVariant.C28_get",
    "BVariant.C28_get_null",
    "BVariant.C28_get_volatile",
    "BVariant.C28_get_default"
   ],
   "note": "Stated for every state between statements (Good) of any configuration; that every program stays in such states is C01's subject. C28_get_default: get itself, with and without BOOST_VARIANT_USE_RELAXED_GET_BY_DEFAULT."
  },
  {
   "property": "C29",
   "status": "partial",
   "theorems": [
    "BVariant.C29_strict_get_check_partial",
    "BVariant.C29_counterexample_const_volatile",
    "BVariant.C29_counterexample_volatile_element",
    "BVariant.C29_counterexample_reference",
    "BVariant.C29_get_partial",
    "BVariant.C77_strict_get_exact_iff"
   ],
   "note": "Exact for types and requests without volatile, and without reference requests on const variants; a reference request on an rvalue variant is always rejected, on purpose. In the missing cases the claim is false: counterexamples (findings F11, F12). C29_get_partial: get itself, with and without BOOST_VARIANT_USE_RELAXED_GET_BY_DEFAULT. The exact condition, for all types and requests, is C77_strict_get_exact_iff (C77)."
  },
  {
   "property": "C30",
   "status": "partial",
   "theorems": [
    "BVariant.C30_polymorphic_get_partial",
    "BVariant.C30_polymorphic_get_extends_get",
    "BVariant.C30_counterexample_volatile",
    "BVariant.C30_polymorphic_get_default_partial"
   ],
   "note": "Stated for every state between statements (Good) of any configuration; that every program stays in such states is C01's subject. Proved for types and requests without volatile; with volatile scalars the claim is false: counterexample (finding F11). The exact condition with volatile types is C77_polymorphic_get_volatile and C77_get_but_not_polymorphic_iff (C77). C30_polymorphic_get_default_partial: polymorphic_get itself, with and without BOOST_VARIANT_USE_RELAXED_GET_BY_DEFAULT."
  },
  {
   "property": "C31",
   "status": "proved",
   "theorems": [
    "BVariant.C31_binary_visitation",
    "BVariant.C32_every_variable_has_an_argument"
   ],
   "note": "All four category combinations, arbitrary visitor code. Stated for every state between statements (GoodMix) of any configuration; that every program stays in such states is C01's subject. The variants may be of different types."
  },
  {
   "property": "C32",
   "status": "proved",
   "theorems": [
    "BVariant.C32_nary_visitation",
    "BVariant.C32_delayed",
    "BVariant.C32_every_variable_has_an_argument"
   ],
   "note": "Every number of variants, by induction. Stated for every state between statements (GoodMix) of any configuration; that every program stays in such states is C01's subject. The variants may be of different types."
  },
  {
   "property": "C33",
   "status": "proved",
   "theorems": [
    "BVariant.C33_nary_rvalues",
    "BVariant.C33_failure_keeps_invariant",
    "BVariant.C33_moves_even_if_not_consumed",
    "BVariant.C33_const_unchanged"
   ],
   "note": "Every number of variants, every choice of rvalues (a variable passed as an rvalue is passed once), every throw point, every order of evaluation of the call's arguments. Stated for every state between statements (GoodMix) of any configuration; that every program stays in such states is C01's subject. The variants may be of different types. Arguments may be const: a const rvalue is copied, and may be passed several times."
  },
  {
   "property": "C34",
   "status": "proved",
   "theorems": [
    "BVariant.C34_visitor_ptr"
   ],
   "note": "Stated for every state between statements (Good) of any configuration; that every program stays in such states is C01's subject."
  },
  {
   "property": "C35",
   "status": "proved",
   "theorems": [
    "BVariant.C35_every_wrapper_owns",
    "BVariant.C35_nothing_leaks"
   ],
   "note": "For every program on any number of wrappers and every choice of failing operations (allocation, copy, move, default construction, assignment). One type T."
  },
  {
   "property": "C36",
   "status": "proved",
   "theorems": [
    "BVariant.C36_refines_plain_values",
    "BVariant.C36_copies_are_independent",
    "BVariant.C36_assigned_are_independent",
    "BVariant.C36_move_construction",
    "BVariant.C36_exchange",
    "BVariant.C36_throws_only_if_thrown"
   ],
   "note": "For states reached by any program. C36_refines_plain_values is the general statement: wrappers behave as plain values in a store."
  },
  {
   "property": "C37",
   "status": "proved",
   "theorems": [
    "BVariant.C37_deep_copy",
    "BVariant.C37_destroy_frees",
    "BVariant.C37_statement",
    "BVariant.C37_programs_on_trees",
    "BVariant.C37_nothing_leaks",
    "BVariant.C37_copies_are_independent"
   ],
   "note": "Trees of any shape and depth, every throw point, contents in place or in a heap backup, statements (construction, copy, move, assignment, swap, change, destruction) on variables and on parts of trees. A wrapped type is modelled as a value with a list of variants, copied memberwise in order. The statements on programs are for runs that meet none of the assignments and swaps of findings F1, F5 and F20 (a swap of a variant with a part of it counts as one)."
  },
  {
   "property": "C38",
   "status": "proved",
   "theorems": [
    "BVariant.C38_replaced",
    "BVariant.C38_rest_unchanged",
    "BVariant.C38_nested_recursive_variants",
    "BVariant.C38_changed_iff",
    "BVariant.C38_wraps_iff",
    "BVariant.C38_bounded_types",
    "BVariant.C38_double_wrapping",
    "BVariant.C38_not_reached",
    "BVariant.C38_over",
    "BVariant.C38_over_nested"
   ],
   "note": "All type expressions. The positions are given by the inductive predicate Reached, independently of substitute. C38_not_reached lists what is not reached (F8). make_variant_over (C38_over, C38_over_nested): the copy of the sequence by MPL is modelled as a copy of its elements."
  },
  {
   "property": "C39",
   "status": "partial",
   "theorems": [
    "BVariant.C39_selects_the_winner",
    "BVariant.C39_winner_unique",
    "BVariant.C39_constructs",
    "BVariant.C39_ill_formed_iff_partial",
    "BVariant.C39_same_type",
    "BVariant.C39_overload_form",
    "BVariant.C39_wrapper_irrelevant",
    "BVariant.C39_effect",
    "BVariant.C39_wrapped_rejected",
    "BVariant.C39_hidden_overload"
   ],
   "note": "For every argument (any conversions with any ranking subject to InitArg.Lawful) and every list of different bounded types: initialize's overload set, with the hiding that the using-declarations leave, selects index i iff the i-th bounded type is the unique best (C39_selects_the_winner); construction also needs is_variant_constructible_from. 'Ill-formed exactly when there is no unique best' is false if the best type is a recursive_wrapper<T> and the argument is not a T (F15, C39_wrapped_rejected); C39_ill_formed_iff_partial proves it otherwise. C39_hidden_overload (F16) shows why the bounded types must differ. C39_effect links the choice to the content and which()."
  },
  {
   "property": "C40",
   "status": "partial",
   "theorems": [
    "BVariant.C40_construction",
    "BVariant.C40_assignment",
    "BVariant.C40_content_found",
    "BVariant.C40_winner",
    "BVariant.C40_constructible_iff",
    "BVariant.C40_well_formed_iff",
    "BVariant.C40_no_state_left_out",
    "BVariant.C40_source_kept",
    "BVariant.C40_source_state",
    "BVariant.C40_assignment_value_partial",
    "BVariant.C40_assignment_differs",
    "BVariant.C40_is_foreign_iff",
    "BVariant.C40_stored_whole",
    "BVariant.C40_wrapped_source_rejected",
    "BVariant.C40_wrapped_whole_rejected",
    "BVariant.C40_moves_from_referent",
    "BVariant.C40_in_programs_construction",
    "BVariant.C40_in_programs_assignment"
   ],
   "note": "Construction from another variant type, in any storage state of the source, is proved equal, as an execution, to construction from its content (C40_construction), with the bounded type that C39's overload resolution selects (C40_winner), and the source is unchanged unless it is an rvalue. Assignment is equal to the program statements assignVL/assignVR/assignC, so that all theorems on programs cover it; it gives the same value as assigning the content (C40_assignment_value_partial), but is not the same in all respects (F19, C40_assignment_differs). A variant type that is a bounded type is stored whole (C40_stored_whole), when the constructor takes part at all; F17 gives cases where it does not. F18: rvalue conversion moves out of referents. C40_in_programs_*: the same with source and target as variables of one program among any others; gives contents, storage, what else is unchanged, and the invariant."
  },
  {
   "property": "C41",
   "status": "proved",
   "theorems": [
    "BVariant.C41_streaming",
    "BVariant.C41_streaming_nested",
    "BVariant.C41_streaming_runs"
   ],
   "note": "Stated for every state between statements (Good) of any configuration; that every program stays in such states is C01's subject. C41_streaming_runs: for streaming of elements that is any code."
  },
  {
   "property": "C42",
   "status": "proved",
   "theorems": [
    "BVariant.C42_copy_assignment_same_state_runs",
    "BVariant.C42_move_assignment_same_state_runs",
    "BVariant.C42_copy_assignment_same_state",
    "BVariant.C42_move_assignment_same_state",
    "BVariant.C22_value_assignment_held_type",
    "BVariant.C42_type_change_destroys",
    "BVariant.C42_converting_construction",
    "BVariant.C07_copy_construction",
    "BVariant.C08_move_construction"
   ],
   "note": "Stated for every state between statements (Good) of any configuration; that every program stays in such states is C01's subject."
  },
  {
   "property": "C43",
   "status": "proved",
   "theorems": [
    "BVariant.C43_visitation",
    "BVariant.C43_queries",
    "BVariant.C43_get",
    "BVariant.C43_comparison",
    "BVariant.C43_hash_and_stream",
    "BVariant.C43_copy_construction",
    "BVariant.C43_move_construction",
    "BVariant.C43_converting_construction",
    "BVariant.C43_converting_assignment",
    "BVariant.C43_same_type_swap"
   ],
   "note": "Stated for every state between statements (Good) of any configuration; that every program stays in such states is C01's subject."
  },
  {
   "property": "C44",
   "status": "partial",
   "theorems": [
    "BVariant.C44_refinement_partial",
    "BVariant.C44_refinement_single_storage_partial",
    "BVariant.C44_refinement_without_failures",
    "BVariant.C44_refinement_asserted_partial"
   ],
   "note": "Forward simulation of whole programs against a plain store of (index, value) pairs (Spec/Store.lean), failures included. C44_refinement_without_failures has no hypothesis on the configuration beyond BlankOk. With failures the claim is false under findings F1, F2 and F10 (see the C01 counterexamples), so those theorems exclude reads from a backup by a type-changing assignment, nothrow-copy/throwing-move types and the iterator fallback object; a failed swap has the basic guarantee only (F9). With assertions on, programs with F1 statements are included: they follow the store or stop at the failed assertion. Exactly for which bounded types it holds for all programs is C71_refines_iff (C71)."
  },
  {
   "property": "C45",
   "status": "proved",
   "theorems": [
    "BVariant.C45_default_construction"
   ],
   "note": "Stated for every state between statements (Good) of any configuration; that every program stays in such states is C01's subject."
  },
  {
   "property": "C46",
   "status": "partial",
   "theorems": [
    "BVariant.C46_assign_from_own_part_partial",
    "BVariant.C46_destroyed_before_read",
    "BVariant.C46_part_of_right_side"
   ],
   "note": "False in general (F5): C46_destroyed_before_read shows undefined behaviour in every state for the strategies that destroy the left content first. Proved for the others. Both sides are places at any depth of a tree. C46_part_of_right_side: the other way round, with the left side a part of the right side and of another type, no strategy succeeds. Assignment of the same type in place is T::operator=, which the model takes to be copy-and-swap. C80_own_part_iff: exactly for which pairs of types it holds in all states a program can come to. C79 has T::operator= that assigns member by member instead; then assigning a variant its own first member is in general undefined behaviour (F31)."
  },
  {
   "property": "C47",
   "status": "proved",
   "theorems": [
    "BVariant.C47_type_and_empty"
   ],
   "note": "Stated for every state between statements (Good) of any configuration; that every program stays in such states is C01's subject."
  },
  {
   "property": "C48",
   "status": "partial",
   "theorems": [
    "BVariant.C48_copy_assignment_partial",
    "BVariant.C48_move_assignment_partial",
    "BVariant.C48_value_assignment_partial",
    "BVariant.C48_counterexample_scalar",
    "BVariant.C48_counterexample_fallback_ctor",
    "BVariant.C67_fallback_value_iff"
   ],
   "note": "False for scalar fallback types (F4) and under the iterator reading (F10), both with witnesses. Proved for fallback types whose default initialisation gives the value of F(). Exactly for which bounded types the claim holds is C67_fallback_value_iff (C67)."
  },
  {
   "property": "C49",
   "status": "partial",
   "theorems": [
    "BVariant.C49_polymorphic_strict_get_check_partial",
    "BVariant.C49_counterexample_reference_element",
    "BVariant.C49_counterexample_const_class",
    "BVariant.C49_counterexample_const_scalar",
    "BVariant.C49_polymorphic_get_partial",
    "BVariant.C77_polymorphic_exact_iff"
   ],
   "note": "Exact for bounded types that are plain (not const, volatile or references). In the missing cases the claim is false: counterexamples (finding F13). C49_polymorphic_get_partial: polymorphic_get itself. The exact condition for all types without volatile is C77_polymorphic_exact_iff (C77)."
  },
  {
   "property": "C50",
   "status": "proved",
   "theorems": [
    "BVariant.C50_move_construct",
    "BVariant.C50_same_type_exchanges",
    "BVariant.C37_statement",
    "BVariant.C37_programs_on_trees"
   ],
   "note": "Every state in which each variable has its tree in blocks of its own, at any places; that every supported program stays in such states is C37_programs_on_trees. The exchange is stated for contents in place and places neither of which is a part of the other (F20, see C51). Move assignment between types: C37_statement."
  },
  {
   "property": "C51",
   "status": "partial",
   "theorems": [
    "BVariant.C51_move_from_own_part_partial",
    "BVariant.C51_destroyed_before_read",
    "BVariant.C51_swap_leaks",
    "BVariant.C51_part_of_right_side",
    "BVariant.C51_part_of_right_side_leaks"
   ],
   "note": "False in general. C51_swap_leaks (F20): with the same type the value is right but the old node leaks, in every state and whichever side is the outer one. C51_destroyed_before_read (F5): between types the content is destroyed before it is read. C51_part_of_right_side and C51_part_of_right_side_leaks (F20): the left side a part of the right one, with different types. Proved for the one strategy that copies first. Not covered: in that last case, with a fallback type, a right node moving its members one by one with a node in between that gives its members away. C80_own_part_move_iff: exactly when there is no undefined behaviour."
  },
  {
   "property": "C52",
   "status": "proved",
   "theorems": [
    "BVariant.C52_other_types_do_not_matter",
    "BVariant.C52_programs",
    "BVariant.C52_assertions"
   ],
   "note": "From every state between statements (GoodMix) of any table of variant types, by a frame lemma for every function of the model; C52_programs for whole programs on variables of one type. A statement that faults is not compared. C52_assertions: a failed assertion without the variables of other types is a failed assertion with them."
  },
  {
   "property": "C53",
   "status": "proved",
   "theorems": [
    "BVariant.C53_construction",
    "BVariant.C53_assignment_held_type",
    "BVariant.C53_assignment_new_type",
    "BVariant.C53_self_assignment",
    "BVariant.C53_assignment_value",
    "BVariant.C53_no_fault"
   ],
   "note": "Stated for every state between statements (Good) of any configuration; that every program stays in such states is C01's subject. What failing assignments leave is in the C11, C12 and C44 theorems, which also cover these statements."
  },
  {
   "property": "C54",
   "status": "partial",
   "theorems": [
    "BVariant.C54_overload_called",
    "BVariant.C54_same_type",
    "BVariant.C54_same_type_nary",
    "BVariant.C54_deduced_type",
    "BVariant.C54_dangling_partial",
    "BVariant.C54_rejected",
    "BVariant.C54_order_partial",
    "BVariant.C54_base_reference_last_partial",
    "BVariant.C54_counterexample_dangling",
    "BVariant.C54_counterexample_reference",
    "BVariant.C54_counterexample_order",
    "BVariant.C54_references",
    "BVariant.C54_arithmetic",
    "BVariant.C54_arithmetic_order",
    "BVariant.C54_arithmetic_values",
    "BVariant.C54_arithmetic_dangling",
    "BVariant.C54_pointers",
    "BVariant.C54_pointers_order",
    "BVariant.C54_class_values",
    "BVariant.C54_class_values_ordered",
    "BVariant.C54_counterexample_conversions",
    "BVariant.C54_kind",
    "BVariant.C54_lifetime_partial"
   ],
   "note": "Same return type: proved for all type lists and any number of variants. Deduced type, dangling and rejection characterised exactly for overloads returning T, T& or T&&. Order, lifetime and 'the overload called' are false in general (findings F21, F22: counterexamples proved). Operands of different types only as far as C54_base_reference_last_partial goes. The n-ary theorem is about the deduction only; whether a call is accepted at all is C61 (F24: not for four and more variants). For overloads that all return lvalue references to classes C54_references says exactly when the deduction compiles and to which type. Overloads returning different arithmetic types: C54_arithmetic gives the deduced type (the least common type under the usual arithmetic conversions, by value, with one exact exception); C54_arithmetic_order: independent of the order of the bounded types, nothing dangles; C54_arithmetic_values: which values are kept; C54_arithmetic_dangling: in the exception a result dangles (F21). Overloads returning different pointer types by value (to classes, void, or nullptr_t): C54_pointers says exactly when the deduction compiles and that it finds the least pointer type to which all can be converted, nothing dangling; C54_pointers_order: the order can decide whether it compiles, never what it finds. Overloads returning different classes and at most one other type by value: C54_class_values says, for any implicit conversions, what the deduced type is and which return statements compile; C54_class_values_ordered says exactly when the deduction compiles if conversions compose (base classes); C54_counterexample_conversions: if they do not compose, the order matters and a return statement can be ill-formed. Not treated: other mixtures of references, pointers, arithmetic types and classes, and conversion functions to references. For overloads that return any types at all, with any conversions but those by conversion functions to references: C54_kind says when the deduced type can be void, an lvalue reference or an rvalue reference; C54_lifetime_partial: nothing dangles unless the overload for the first bounded type returns an rvalue reference (which F21 needs)."
  },
  {
   "property": "C55",
   "status": "proved",
   "theorems": [
    "BVariant.C55_equality_result",
    "BVariant.C55_less_result",
    "BVariant.C55_equality_equivalence",
    "BVariant.C55_less_strict_weak",
    "BVariant.C55_trichotomy",
    "BVariant.C55_hash_result",
    "BVariant.C55_equal_hashes",
    "BVariant.C55_streaming",
    "BVariant.C55_copy_equals_original",
    "BVariant.C55_after_any_program"
   ],
   "note": "For every state in which the variables represent trees in memory of their own; C55_after_any_program gives it for every program that meets no unsupported assignment (C37). What a node class does with its value and its list of variants is fixed as in DESIGN.md."
  },
  {
   "property": "C56",
   "status": "proved",
   "theorems": [
    "BVariant.C56_swap",
    "BVariant.C56_swap_twice",
    "BVariant.C56_same_type_settled",
    "BVariant.C56_left_in_backup",
    "BVariant.C56_swap_with_part_leaks",
    "BVariant.C56_swap_with_part_undefined"
   ],
   "note": "For every state in which the variables represent trees in memory of their own (C37: every state programs reach). What a failed swap may leave is spelled out by SwapLeaves; a value may be lost (F9). C56_left_in_backup: with the left variant in a heap backup and another type on the right, the swap never succeeds (F1). The claim leaves out swaps of a variant with a part of it: C56_swap_with_part_leaks and C56_swap_with_part_undefined show why (F20). The swap of two nodes is the node class's and fixed as in DESIGN.md."
  },
  {
   "property": "C57",
   "status": "proved",
   "theorems": [
    "BVariant.C57_statement",
    "BVariant.C57_fault_iff",
    "BVariant.C57_dead_forever",
    "BVariant.C57_careful",
    "BVariant.C57_like_get",
    "BVariant.C57_visitor",
    "BVariant.C57_visitor_careful",
    "BVariant.C57_visitor_dangling"
   ],
   "note": "From every state between statements (Good; references bound to objects of their types). Cmd.keeps lists the statements that keep a reference. The claim excludes F1 statements (which are undefined) and configurations of F2 and F10. A new object at the address of a destroyed one counts as another object, although C++ lets references to the old one refer to it if the types are equal."
  },
  {
   "property": "C58",
   "status": "proved",
   "theorems": [
    "BVariant.C58_more_stack",
    "BVariant.C58_more_stack_programs",
    "BVariant.C58_more_stack_comparisons",
    "BVariant.C58_more_stack_observers",
    "BVariant.C58_destroy",
    "BVariant.C58_copy",
    "BVariant.C58_move",
    "BVariant.C58_hash_and_print",
    "BVariant.C58_equal",
    "BVariant.C58_swap_within_a_type",
    "BVariant.C58_move_assign_within_a_type",
    "BVariant.C58_no_stack_is_deep_enough"
   ],
   "note": "Depth is counted in nested calls for variants (one per level of the tree); frames of other functions are not counted. That the states between statements are represented by trees is C37's subject. The last theorem is the finding F23."
  },
  {
   "property": "C59",
   "status": "partial",
   "theorems": [
    "BVariant.C59_never_empty_partial",
    "BVariant.C59_never_empty_single_storage_partial",
    "BVariant.C59_nothing_left_partial",
    "BVariant.C59_unwinding",
    "BVariant.C59_is_a_sequence_partial",
    "BVariant.C59_sequences",
    "BVariant.C59_never_empty_asserted_partial",
    "BVariant.C59_nothing_left_asserted_partial",
    "BVariant.C59_means"
   ],
   "note": "Missing in the partial theorems: programs that reach a statement concerned by F1 (for which the claim is false), and configurations of F2 and F10 (Sane). Where the single-storage conditions hold for every variant type, no program reaches an F1 statement (second theorem). The language around the statements is part of the trusted base: conditions are functions of the state; statements that are not valid are skipped. With assertions on (the _asserted theorems), nothing is assumed about which statements the program reaches: it is in a good state after any number of steps, or it has stopped at the failed assertion of a statement of finding F1. Exactly for which variant types the claim holds of all programs is C71_control_flow_never_empty_iff (C71). C59_means: the small-step machine ends, normally or by an exception, exactly when the big-step meaning of the constructs (Spec/StructuredRuns.lean, Runs) says so."
  },
  {
   "property": "C60",
   "status": "proved",
   "theorems": [
    "BVariant.C60_never_empty_iff",
    "BVariant.C60_backups_iff",
    "BVariant.C60_conditions_are_needed",
    "BVariant.C60_conditions_are_needed_asserted"
   ],
   "note": "Equivalences, for every variant type and build (C), over all exception oracles (withThrows) and programs. BlankOk is a fact on boost/blank.hpp; the value v only says that the type of values is not empty."
  },
  {
   "property": "C61",
   "status": "partial",
   "theorems": [
    "BVariant.C61_result_type",
    "BVariant.C61_deduced_partial",
    "BVariant.C61_four_variants",
    "BVariant.C61_fourth_ignored",
    "BVariant.C61_whole_call",
    "BVariant.C61_delayed",
    "BVariant.C61_any_arguments"
   ],
   "note": "Full for visitors with result_type, any number of variants. For visitors without result_type the claim is false for four and more variants (finding F24, proved in C61_four_variants); C61_deduced_partial is for up to three. C61_whole_call and C61_delayed are exact. The rules of overload resolution needed are part of the trusted base. C61_any_arguments: which calls compile and how many arguments are visited, exactly, for arguments of any type and number."
  },
  {
   "property": "C62",
   "status": "proved",
   "theorems": [
    "BVariant.C62_statement",
    "BVariant.C62_program",
    "BVariant.C62_linear",
    "BVariant.C62_mixed_statement",
    "BVariant.C62_structured",
    "BVariant.C62_visitation",
    "BVariant.C62_lvalues"
   ],
   "note": "From every state, reachable or not; the budgets (Cmd.budget, MixCmd.budget, movesOf) are tables of numbers, and an example shows each one attained. Counted are the operations of element types that may throw and allocations (tick), objects constructed (next) and the library's allocations. A user's swap of an element type counts as one operation. Trees (recursive_wrapper) are not covered: there a copy costs as much as the tree is large."
  },
  {
   "property": "C63",
   "status": "proved",
   "theorems": [
    "BVariant.C63_visit",
    "BVariant.C63_destroy",
    "BVariant.C63_use",
    "BVariant.C63_no_repair",
    "BVariant.C63_program_no_repair",
    "BVariant.C63_statement",
    "BVariant.C63_backup_source",
    "BVariant.C63_program",
    "BVariant.C63_never_empty",
    "BVariant.C63_no_way_out",
    "BVariant.C63_every_program",
    "BVariant.C63_scoped_program"
   ],
   "note": "For any configuration in which boost::blank is nothrow default constructible (BlankOk, a fact about boost/blank.hpp); no Sane hypothesis and no condition on the statements executed. Broken (Spec/Broken.lean) says that the storage holds no object where the library looks for one. C63_statement: every statement leaves the invariant, or a broken variant that it names, or stops at the failed assertion of finding F1. C63_scoped_program: every program with scoped variables that ends was never empty."
  },
  {
   "property": "C64",
   "status": "proved",
   "theorems": [
    "BVariant.C64_statement",
    "BVariant.C64_program",
    "BVariant.C64_scoped_program",
    "BVariant.C64_every_state",
    "BVariant.C64_no_exceptions",
    "BVariant.C64_configurations"
   ],
   "note": "For any configuration in which boost::blank is nothrow default constructible (BlankOk) and the operations of the elements have their meaning (Lawful); no Sane hypothesis. The plain program is defined in Spec/Plain.lean by rules of its own. That a broken variable is never repaired, and its scope never left, is C63. C64_configurations is about programs that move nothing: what a move leaves in its source is up to the element type."
  },
  {
   "property": "C65",
   "status": "proved",
   "theorems": [
    "BVariant.C65_variants",
    "BVariant.C65_no_conversion",
    "BVariant.C65_compiles_iff",
    "BVariant.C65_selected",
    "BVariant.C65_template_needed"
   ],
   "note": "Exact for all operators, operand types and language versions. The rules of overload resolution needed are part of the trusted base; operators that the user declares are not considered."
  },
  {
   "property": "C66",
   "status": "proved",
   "theorems": [
    "BVariant.C66_assign",
    "BVariant.C66_move_assign",
    "BVariant.C66_no_bound"
   ],
   "note": "The counts are exact for assignments that succeed; for ones that fail no count is stated. Assignment within a type is the wrapped type's own operator= and is left out. Which values result is C37's and C50's subject."
  },
  {
   "property": "C67",
   "status": "proved",
   "theorems": [
    "BVariant.C67_strong_guarantee_iff",
    "BVariant.C67_fallback_iff",
    "BVariant.C67_fallback_value_iff",
    "BVariant.C67_throws_iff",
    "BVariant.C67_in_place_iff",
    "BVariant.C67_assigned_value_iff"
   ],
   "note": "Equivalences for every list of bounded types and every build; `hb` (boost::blank is nothrow default constructible) is a fact on boost/blank.hpp. (1) and (6) are for element operations that preserve values (Lawful). Each theorem is applied, beside it, to types inside and outside the condition."
  },
  {
   "property": "C68",
   "status": "proved",
   "theorems": [
    "BVariant.C68_copy_assignment",
    "BVariant.C68_move_assignment",
    "BVariant.C68_swap",
    "BVariant.C68_copy_assignment_throws_iff",
    "BVariant.C68_move_assignment_throws_iff",
    "BVariant.C68_swap_throws_iff",
    "BVariant.C68_default_construction_noexcept",
    "BVariant.C68_move_construction_noexcept",
    "BVariant.C68_copy_construction_nothrow",
    "BVariant.C68_move_assignment_nothrow",
    "BVariant.C68_copy_assignment_same",
    "BVariant.C68_move_assignment_same",
    "BVariant.C68_swap_same",
    "BVariant.C68_value_assignment"
   ],
   "note": "The first three are the tables, as equivalences for every kind of exception. Findings F2 and F10 are excluded by Sane; statements of finding F1 are excluded by readsBackup. The *_same theorems are the tables for variants that hold the same type, C68_value_assignment the one for values in each of the five modes (lvalue, rvalue, conversion, and content of another variant)."
  },
  {
   "property": "C69",
   "status": "proved",
   "theorems": [
    "BVariant.MemberArg.C69_variant",
    "BVariant.MemberArg.C69_derived_construct",
    "BVariant.MemberArg.C69_derived_assign",
    "BVariant.MemberArg.C69_other_construct",
    "BVariant.MemberArg.C69_other_assign",
    "BVariant.MemberArg.C69_foreign_construct",
    "BVariant.MemberArg.C69_foreign_assign",
    "BVariant.MemberArg.C69_foreign_derived_construct",
    "BVariant.MemberArg.C69_foreign_derived_assign",
    "BVariant.MemberArg.C69_construct_never_moves",
    "BVariant.MemberArg.C69_assign_never_moves",
    "BVariant.MemberArg.C69_rvalues_moved",
    "BVariant.MemberArg.C69_no_rvalue_operator",
    "BVariant.MemberArg.C69_assign_iff_construct",
    "BVariant.MemberArg.C69_initialize",
    "BVariant.C69_counterexample_aggregate"
   ],
   "note": "The rules of C++ for overload resolution, and what the bounded types can be constructed from, are inputs (trusted base). The statement says where the code deviates from what the reference promises (F28, F29); both are proved. recursive_variant_ operands and classes with two variant bases are left out."
  },
  {
   "property": "C70",
   "status": "proved",
   "theorems": [
    "BVariant.C70_exchange_iff",
    "BVariant.C70_strong_iff"
   ],
   "note": "Two equivalences over all reached states. Outside findings F2 and F10 (Sane), which are about types that break already at construction or assignment; C60 says exactly which those are. The second assumes bounded types whose failed move leaves the source as it was, since otherwise no swap could keep it."
  },
  {
   "property": "C71",
   "status": "proved",
   "theorems": [
    "BVariant.C71_safe_iff",
    "BVariant.C71_safe_asserted_iff",
    "BVariant.C71_leak_free_iff",
    "BVariant.C71_refines_iff",
    "BVariant.C71_control_flow_safe_iff",
    "BVariant.C71_control_flow_never_empty_iff",
    "BVariant.C71_control_flow_asserted_iff"
   ],
   "note": "Equivalences for every list of traits and every build (BlankOk is a fact on boost/blank.hpp). The refinement assumes element operations that preserve values. The same for programs with control flow, scopes and conversions between several variant types: the three C71_control_flow theorems."
  },
  {
   "property": "C72",
   "status": "proved",
   "theorems": [
    "BVariant.C72_statement",
    "BVariant.C72_program",
    "BVariant.C72_build"
   ],
   "note": "For types outside F2, F3 and F10 (Sane) and statements outside F1, as the claim says. Spec/Exact.lean is the reference interpreter."
  },
  {
   "property": "C73",
   "status": "proved",
   "theorems": [
    "BVariant.C73_valid",
    "BVariant.C73_statement",
    "BVariant.C73_program",
    "BVariant.C73_unsupported",
    "BVariant.C73_depth"
   ],
   "note": "Spec/ExactTree.lean is the reference interpreter. Statements of F1, F5, F20 and swaps with a part of itself are excluded, as the claim says; TCmd.risky predicts them."
  },
  {
   "property": "C74",
   "status": "proved",
   "theorems": [
    "BVariant.C74_behaves",
    "BVariant.C74_does",
    "BVariant.C74_nothing_left",
    "BVariant.C74_backup_free",
    "BVariant.C74_tree_behaves",
    "BVariant.C74_tree_does",
    "BVariant.C74_tree_nothing_left",
    "BVariant.C74_unique"
   ],
   "note": "C74_behaves and C74_tree_behaves ask (as the statement says) that the run comes to no valid statement that C72 and C73 except (F1; for recursive variants also F5, F20 and swaps of a variant with a part of it). For recursive variants the stack must have room for the trees: 2^k frames suffice for k steps. An uncaught exception ends the local variants on its way, as implementations of C++ may but need not do."
  },
  {
   "property": "C75",
   "status": "proved",
   "theorems": [
    "BVariant.C75_agree"
   ],
   "note": "For the stack of the tree model, 2^k frames suffice for a program of k statements. The model of swap on trees takes a name for its local variable; the program must not use that name."
  },
  {
   "property": "C76",
   "status": "proved",
   "theorems": [
    "BVariant.C76_statement",
    "BVariant.C76_program",
    "BVariant.C76_behaves",
    "BVariant.C76_does",
    "BVariant.C76_nothing_left"
   ],
   "note": "Spec/ExactMixed.lean is the interpreter; MixCmd.exactHazard predicts F1. A comparison of variants of different types does not compile; in a condition it is not made and counts as false."
  },
  {
   "property": "C77",
   "status": "proved",
   "theorems": [
    "BVariant.C77_get_can_succeed_iff",
    "BVariant.C77_strict_get_useless_iff",
    "BVariant.C77_strict_get_missed_iff",
    "BVariant.C77_strict_get_exact_iff",
    "BVariant.C77_polymorphic_useless_iff",
    "BVariant.C77_polymorphic_missed_iff",
    "BVariant.C77_polymorphic_exact_iff",
    "BVariant.C77_polymorphic_volatile_compiles_iff",
    "BVariant.C77_polymorphic_get_volatile",
    "BVariant.C77_get_but_not_polymorphic_iff"
   ],
   "note": "Settles the cases that C29, C30 and C49 leave out (findings F11, F12, F13). The kinds of wrong requests are spelled out in Spec/GetExact.lean by what the variant type lists."
  },
  {
   "property": "C78",
   "status": "proved",
   "theorems": [
    "BVariant.C78_up_to_two",
    "BVariant.C78_lvalue",
    "BVariant.C78_rvalue_dangles",
    "BVariant.C78_returns"
   ],
   "note": "From every state between statements (GoodMix). Finding F30. C78_returns: such a call does return, so that the dangling reference reaches the caller."
  },
  {
   "property": "C79",
   "status": "proved",
   "theorems": [
    "BVariant.C79_member_assignment",
    "BVariant.C79_same_types_no_allocation",
    "BVariant.C79_succeeds",
    "BVariant.C79_self_assignment",
    "BVariant.C79_first_member_faults",
    "BVariant.C79_programs",
    "BVariant.C79_nothing_leaks",
    "BVariant.C79_programs_checked"
   ],
   "note": "For every state between statements of recursive variants (Represents, Fresh), as C37. The right side is in place (not in a heap backup left by a failed assignment); with a fallback type the left side as well, which is then always so. C79_first_member_faults: finding F31. For whole programs: C79_programs and C79_nothing_leaks; C79_programs_checked has a condition that can be computed."
  },
  {
   "property": "C80",
   "status": "proved",
   "theorems": [
    "BVariant.C80_disjoint_programs_safe_iff",
    "BVariant.C80_own_part_iff",
    "BVariant.C80_own_part_move_iff",
    "BVariant.C80_outer_never"
   ],
   "note": "The types of the model are numbered without a bound, so that 'any two types' ranges over all numbers; types the variant does not have can be given nothrow moves, which makes the condition true for them. The fallback type, if there is one, is not wrapped (it has a nothrow default constructor). Own parts: both sides in place, not in heap backups; the elements' copies are equal to what they are copied from (Ops.Lawful)."
  },
  {
   "property": "C81",
   "status": "proved",
   "theorems": [
    "BVariant.C81_visit",
    "BVariant.C81_deterministic",
    "BVariant.C81_same_shape",
    "BVariant.C81_reading",
    "BVariant.C81_compute",
    "BVariant.C81_change_all",
    "BVariant.C81_after_any_program"
   ],
   "note": "The visitor is the user's; any sequence of writes, throws, returns and visits of existing members, depending on the values read and the results, with or without handlers. The number n is the depth of the stack, at least that of the trees. Visitors that assign to the variants they visit are not covered here."
  },
  {
   "property": "C82",
   "status": "proved",
   "theorems": [
    "BVariant.C82_visit",
    "BVariant.C82_deterministic",
    "BVariant.C82_same_types",
    "BVariant.C82_ends",
    "BVariant.C82_members",
    "BVariant.C82_reading",
    "BVariant.C82_strict_equals",
    "BVariant.C82_after_any_program"
   ],
   "note": "The visitor is the user's; any sequence of reads and writes of its arguments, throws, returns and visits, depending on the values and results. The arguments are lvalues; visitors that assign to the variants they visit are not covered here. The stack is as deep as the calls are nested."
  },
  {
   "property": "C83",
   "status": "proved",
   "theorems": [
    "BVariant.C83_others_stay",
    "BVariant.C83_changed_node_stays",
    "BVariant.C83_assigned_node_stays",
    "BVariant.C83_moved_nodes_change_places",
    "BVariant.C83_swapped_nodes_stay",
    "BVariant.C83_moved_from_node_stays",
    "BVariant.C83_one_place",
    "BVariant.C83_alive_iff",
    "BVariant.C83_destroyed",
    "BVariant.C83_programs"
   ],
   "note": "The statements are those of C46, without the hazards of findings that C46 excludes (an operand destroyed while in use). The exchange and keeping of nodes is for operands that are both in place or both in heap backups; a mixed pair is written like operands of different types."
  },
  {
   "property": "C84",
   "status": "proved",
   "theorems": [
    "BVariant.C84_user_visitors",
    "BVariant.C84_conversions",
    "BVariant.C84_same_in_backup",
    "BVariant.C84_bounded_types",
    "BVariant.C84_through_backups",
    "BVariant.C84_not_through_backups",
    "BVariant.C84_nested_wrappers"
   ],
   "note": "By induction on the nesting. The rules of C++ for deduction and overload resolution between these members are part of the trusted base. C84_bounded_types justifies what the other claims take as the operand's type (Elem.lvalue). C84_nested_wrappers and the rejected classes are finding F32."
  },
  {
   "property": "C85",
   "status": "proved",
   "theorems": [
    "BVariant.C85_overloads",
    "BVariant.C85_assigns_in_place",
    "BVariant.C85_else_converts",
    "BVariant.C85_value_assignment",
    "BVariant.C85_swap",
    "BVariant.C85_compare",
    "BVariant.C85_type",
    "BVariant.C85_same_type"
   ],
   "note": "Overload resolution between the two functions of direct_assigner, direct_mover and known_get is computed for all qualified types; value assignment, swap and comparison built on it are equal to those of the model in which types are positions."
  },
  {
   "property": "C86",
   "status": "proved",
   "theorems": [
    "BVariant.C86_threads",
    "BVariant.C86_order",
    "BVariant.C86_reads",
    "BVariant.C86_trees",
    "BVariant.C86_trees_order",
    "BVariant.C86_references",
    "BVariant.C86_trees_pointers",
    "BVariant.C86_trees_reads"
   ],
   "note": "Statements are single steps of the model; the interleaving of operations inside statements is not modelled, but the theorems show that a statement changes nothing but the variants that it may change, and depends on nothing but the variants that it names. Outside the findings F1, F2, F3 and F10. C86_reads: what visitors, queries, comparisons, hashing and streaming give. C86_trees and C86_trees_order: the same for recursive variants, for statements that each thread alone may use (F1, F5, F14, F20 excluded), on stacks that are deep enough. C86_references and C86_trees_pointers: references into own and shared variants stay good while other threads execute statements. C86_trees_reads: afterwards, comparing, hashing, streaming and visiting a thread's own and the shared recursive variants, or parts of them, give what they give when the thread has been alone."
  },
  {
   "property": "C87",
   "status": "proved",
   "theorems": [
    "BVariant.C87_arguments",
    "BVariant.C87_parameters",
    "BVariant.C87_round_trip",
    "BVariant.C87_shifted",
    "BVariant.C87_two_lists"
   ],
   "note": "The macros are modelled on tokens, for an argument that is a name or class/typename and a name; the rules for binding template arguments are the specification."
  }
 ]
}
