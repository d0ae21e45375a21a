{
 "claims": [
  {
   "property": "C01",
   "status": "proved",
   "theorems": [
    "Golisp.Props.C01_append",
    "Golisp.Props.C01_append_length",
    "Golisp.Props.C01_append_fresh",
    "Golisp.Props.C01_append_list",
    "Golisp.Props.C01_copy"
   ],
   "note": "Values: C01_append, C01_append_length. On the heap: append writes to no existing object and shares no cell (C01_append_fresh); AppendList and Copy likewise (association lists are copied only in the value model)."
  },
  {
   "property": "C02",
   "status": "partial",
   "theorems": [
    "Golisp.Props.C02_append_bang",
    "Golisp.Props.C02_append_bang_element",
    "Golisp.Props.C02_append_bang_value",
    "Golisp.Props.C02_append_bang_empty",
    "Golisp.Props.C02_nil_element_violation",
    "Golisp.Props.C02_not_list_violation",
    "Golisp.Props.C02_self_circular"
   ],
   "note": "Proved for all heaps except one corner: when the last element of the first list is the nil pointer and the second list is the nil pointer the element is lost (C02_nil_element_violation). A first argument that is not a list is written through as if it were one (C02_not_list_violation)."
  },
  {
   "property": "C03",
   "status": "partial",
   "theorems": [
    "Golisp.Props.C03_reverse_partial",
    "Golisp.Props.C03_reverse_length_partial",
    "Golisp.Props.C03_reverse_reverse_partial",
    "Golisp.Props.C03_reverse_violation"
   ],
   "note": "lists without raw nil elements; violation proved for nil elements"
  },
  {
   "property": "C04",
   "status": "proved",
   "theorems": [
    "Golisp.Props.C04_nth",
    "Golisp.Props.C04_list_ref",
    "Golisp.Props.C04_list_ref_out",
    "Golisp.Props.C04_take",
    "Golisp.Props.C04_drop",
    "Golisp.Props.C04_take_drop",
    "Golisp.Props.C04_sublist"
   ],
   "note": ""
  },
  {
   "property": "C05",
   "status": "proved",
   "theorems": [
    "Golisp.Props.C05_partition_size",
    "Golisp.Props.C05_partition_pred"
   ],
   "note": ""
  },
  {
   "property": "C06",
   "status": "proved",
   "theorems": [
    "Golisp.Props.C06_map",
    "Golisp.Props.C06_map_empty",
    "Golisp.Props.C06_for_each",
    "Golisp.Props.C06_map_call_log"
   ],
   "note": ""
  },
  {
   "property": "C07",
   "status": "proved",
   "theorems": [
    "Golisp.Props.C07_fold_left",
    "Golisp.Props.C07_fold_right",
    "Golisp.Props.C07_reduce_left",
    "Golisp.Props.C07_reduce_right",
    "Golisp.Props.C07_reduce_empty",
    "Golisp.Props.C07_fold_pure"
   ],
   "note": ""
  },
  {
   "property": "C08",
   "status": "proved",
   "theorems": [
    "Golisp.Props.C08_filter_remove",
    "Golisp.Props.C08_filter_remove_stop"
   ],
   "note": ""
  },
  {
   "property": "C09",
   "status": "proved",
   "theorems": [
    "Golisp.Props.C09_find_hit",
    "Golisp.Props.C09_find_miss",
    "Golisp.Props.C09_find_fail",
    "Golisp.Props.C09_memq",
    "Golisp.Props.C09_any_every",
    "Golisp.Props.C09_firstDecisive"
   ],
   "note": ""
  },
  {
   "property": "C10",
   "status": "proved",
   "theorems": [
    "Golisp.Props.C10_union",
    "Golisp.Props.C10_intersection",
    "Golisp.Props.C10_complement",
    "Golisp.Props.C10_non_list"
   ],
   "note": "Set operations over lists of values without NaN, dotted tails or association lists (the domain where equal? is an equivalence)."
  },
  {
   "property": "C11",
   "status": "partial",
   "theorems": [
    "Golisp.Props.C11_assoc",
    "Golisp.Props.C11_acons",
    "Golisp.Props.C11_dissoc",
    "Golisp.Props.C11_dissoc_distinct_partial",
    "Golisp.Props.C11_dissoc_violation"
   ],
   "note": "Lookup, update and removal laws for association lists; dissoc with duplicate keys keeps the wrong value (violation proved)."
  },
  {
   "property": "C12",
   "status": "partial",
   "theorems": [
    "Golisp.Props.C12_equal_structural_partial",
    "Golisp.Props.C12_equal_refl_partial",
    "Golisp.Props.C12_equal_symm_partial",
    "Golisp.Props.C12_equal_trans_partial",
    "Golisp.Props.C12_equal_cons_partial",
    "Golisp.Props.C12_dotted_violation",
    "Golisp.Props.C12_alist_symm_violation",
    "Golisp.Props.C12_nan"
   ],
   "note": "equal? is structural and an equivalence on values without NaN, dotted pairs and association lists; counterexamples proved outside."
  },
  {
   "property": "C13",
   "status": "proved",
   "theorems": [
    "Golisp.Props.C13_cxr",
    "Golisp.Props.C13_cxr_non_pair",
    "Golisp.Props.C13_general_car_cdr",
    "Golisp.Props.C13_paths_covered",
    "Golisp.Props.C13_general_car_cdr_zero",
    "Golisp.Props.C13_general_car_cdr_negative"
   ],
   "note": "Every cxr path; general-car-cdr for every encoded path, including zero and negative ones."
  },
  {
   "property": "C14",
   "status": "partial",
   "theorems": [
    "Golisp.Props.C14_flatten_partial",
    "Golisp.Props.C14_flatten_violation",
    "Golisp.Props.C14_flatten_star_partial",
    "Golisp.Props.C14_flatten_star_violation"
   ],
   "note": "Full characterisation when there are no empty sublists; empty sublists stay behind (violations proved)."
  },
  {
   "property": "C15",
   "status": "partial",
   "theorems": [
    "Golisp.Props.C15_round_trip",
    "Golisp.Props.C15_print_injective",
    "Golisp.Props.C15_round_trip_violation"
   ],
   "note": "Proved for every readable value in which a proper list headed by quote has exactly two elements; C15_round_trip_violation shows the code fails on other quote-headed lists and on strings with a backslash. Floats are outside (their text comes from Go's fmt)."
  },
  {
   "property": "C16",
   "status": "proved",
   "theorems": [
    "Golisp.Props.C16_token_progress",
    "Golisp.Props.C16_lex_total",
    "Golisp.Props.C16_parse_total",
    "Golisp.Props.C16_parse_all_total",
    "Golisp.Props.C16_dotted_eof_violation"
   ],
   "note": "Against bound-free relations for tokenizing, parsing and the ParseAll loop. C16_dotted_eof_violation records that a text ending inside a dotted list is not reported as an error."
  },
  {
   "property": "C17",
   "status": "proved",
   "theorems": [
    "Golisp.Props.C17_leading_blank",
    "Golisp.Props.C17_separated"
   ],
   "note": "Leading white space and comments for every text; sequences of printed readable forms separated by white space or comments."
  },
  {
   "property": "C18",
   "status": "proved",
   "theorems": [
    "Golisp.Props.C18_literal",
    "Golisp.Props.C18_cases",
    "Golisp.Props.C18_unterminated",
    "Golisp.Props.C18_string_round_trip"
   ],
   "note": "C18_cases shows the literal and the unterminated theorem cover every text after an opening quote."
  },
  {
   "property": "C19",
   "status": "proved",
   "theorems": [
    "Golisp.Props.C19_add",
    "Golisp.Props.C19_subtract",
    "Golisp.Props.C19_multiply",
    "Golisp.Props.C19_order",
    "Golisp.Props.C19_exact",
    "Golisp.Props.C19_succ_pred",
    "Golisp.Props.C19_non_number"
   ],
   "note": ""
  },
  {
   "property": "C20",
   "status": "partial",
   "theorems": [
    "Golisp.Props.C20_division_partial",
    "Golisp.Props.C20_quotient_zero",
    "Golisp.Props.C20_remainder_zero_violation",
    "Golisp.Props.C20_remainder_non_integer"
   ],
   "note": "Everything for a non-zero divisor; a zero divisor is an error for quotient but a Go panic for the remainder (violation proved for every dividend)."
  },
  {
   "property": "C21",
   "status": "partial",
   "theorems": [
    "Golisp.Props.C21_sound_partial",
    "Golisp.Props.C21_exact_partial",
    "Golisp.Props.C21_violation",
    "Golisp.Props.C21_non_number"
   ],
   "note": "Exact up to 2^24 and one-sided beyond; the full statement is false (violation)."
  },
  {
   "property": "C22",
   "status": "proved",
   "theorems": [
    "Golisp.Props.C22_pow",
    "Golisp.Props.C22_pow_negative"
   ],
   "note": "Integer arguments."
  },
  {
   "property": "C23",
   "status": "proved",
   "theorems": [
    "Golisp.Props.C23_interval_up",
    "Golisp.Props.C23_interval_down",
    "Golisp.Props.C23_interval_default",
    "Golisp.Props.C23_interval_bad_step",
    "Golisp.Props.C23_steps_up",
    "Golisp.Props.C23_steps_down",
    "Golisp.Props.C23_interval_overflow_violation"
   ],
   "note": "Ranges that do not overflow; the overflow case is shown not to terminate."
  },
  {
   "property": "C24",
   "status": "proved",
   "theorems": [
    "Golisp.Props.C24_round_trip",
    "Golisp.Props.C24_default_base",
    "Golisp.Props.C24_injective",
    "Golisp.Props.C24_unsupported_base",
    "Golisp.Props.C24_text"
   ],
   "note": ""
  },
  {
   "property": "C25",
   "status": "partial",
   "theorems": [
    "Golisp.Props.C25_min",
    "Golisp.Props.C25_max",
    "Golisp.Props.C25_min_max_empty",
    "Golisp.Props.C25_parity",
    "Golisp.Props.C25_sign",
    "Golisp.Props.C25_abs_partial",
    "Golisp.Props.C25_abs_violation"
   ],
   "note": "All but abs, which rounds integers above 2^24 (violation)."
  },
  {
   "property": "C26",
   "status": "partial",
   "theorems": [
    "Golisp.Props.C26_and_or",
    "Golisp.Props.C26_not_partial",
    "Golisp.Props.C26_not_violation",
    "Golisp.Props.C26_shift",
    "Golisp.Props.C26_right_shift_floor",
    "Golisp.Props.C26_non_integer"
   ],
   "note": "and/or/shifts in full; binary-not only flips the low 32 bits (violation)."
  },
  {
   "property": "C27",
   "status": "partial",
   "theorems": [
    "Golisp.Props.C27_list_to_bytes",
    "Golisp.Props.C27_bad_element",
    "Golisp.Props.C27_bytes_to_list",
    "Golisp.Props.C27_not_bytes",
    "Golisp.Props.C27_list_round_trip_partial",
    "Golisp.Props.C27_bytes_round_trip_partial",
    "Golisp.Props.C27_empty_violation",
    "Golisp.Props.C27_equal"
   ],
   "note": "`Verif/Bytes.lean` models `prim_bytearray.go` with object identity. Round trips hold for non-empty lists/arrays; the empty list is refused by the code (C27_empty_violation). Elements that are byte arrays are accepted and contribute their bytes."
  },
  {
   "property": "C28",
   "status": "partial",
   "theorems": [
    "Golisp.Props.C28_replace",
    "Golisp.Props.C28_replace_bang",
    "Golisp.Props.C28_replace_error",
    "Golisp.Props.C28_extract",
    "Golisp.Props.C28_extract_error",
    "Golisp.Props.C28_read_back",
    "Golisp.Props.C28_extract_bytes",
    "Golisp.Props.C28_extract_bytes_error_partial",
    "Golisp.Props.C28_extract_bytes_violation"
   ],
   "note": "All cases, with aliases, are proved, except that `extract-bytes` with a count near 2^63 wraps round instead of failing (C28_extract_bytes_violation)."
  },
  {
   "property": "C29",
   "status": "proved",
   "theorems": [
    "Golisp.Props.C29_append",
    "Golisp.Props.C29_append_bang",
    "Golisp.Props.C29_not_bytes",
    "Golisp.Props.C29_bad_extra"
   ],
   "note": "Every argument sequence, every alias; errors have no effect."
  },
  {
   "property": "C30",
   "status": "partial",
   "theorems": [
    "Golisp.Props.C30_count",
    "Golisp.Props.C30_huge_number_dropped",
    "Golisp.Props.C30_wrong_count",
    "Golisp.Props.C30_right_count",
    "Golisp.Props.C30_wrong_count_apply_partial",
    "Golisp.Props.C30_apply_empty_violation"
   ],
   "note": "Which counts a specification allows, for the whole documented grammar, and that any other count stops the call before an argument is evaluated. Through apply, proved for non-empty lists; an empty list is passed as one argument (violation)."
  },
  {
   "property": "C31",
   "status": "partial",
   "theorems": [
    "Golisp.Props.C31_apply",
    "Golisp.Props.C31_param",
    "Golisp.Props.C31_rest",
    "Golisp.Props.C31_only",
    "Golisp.Props.C31_wrong_count",
    "Golisp.Props.C31_rest_only_violation"
   ],
   "note": "Proved for functions with at least one required parameter or none at all; a parameter list that is a bare symbol never binds it (violation proved)."
  },
  {
   "property": "C32",
   "status": "proved",
   "theorems": [
    "Golisp.Props.C32_user",
    "Golisp.Props.C32_primitive",
    "Golisp.Props.C32_primitive_count",
    "Golisp.Props.C32_stops_at_failure",
    "Golisp.Props.C32_once"
   ],
   "note": "Argument evaluation order for user functions and ordinary primitives; count is checked first for primitives."
  },
  {
   "property": "C33",
   "status": "proved",
   "theorems": [
    "Golisp.Props.C33_lambda",
    "Golisp.Props.C33_named_lambda",
    "Golisp.Props.C33_define",
    "Golisp.Props.C33_define_local",
    "Golisp.Props.C33_define_primitive",
    "Golisp.Props.C33_fixed",
    "Golisp.Props.C33_free_variable",
    "Golisp.Props.C33_call_site",
    "Golisp.Props.C33_invisible_after"
   ],
   "note": "Closures capture the defining environment; calls create a fresh environment below it; bindings made inside are invisible in older environments unrelated to them; (define (f ...) ...) binds a new closure here, never over a primitive."
  },
  {
   "property": "C34",
   "status": "proved",
   "theorems": [
    "Golisp.Props.C34_set",
    "Golisp.Props.C34_set_ends",
    "Golisp.Props.C34_never_creates"
   ],
   "note": "Assigns is a separate specification of assignment, including frame slots of method environments."
  },
  {
   "property": "C35",
   "status": "proved",
   "theorems": [
    "Golisp.Props.C35_define",
    "Golisp.Props.C35_protected",
    "Golisp.Props.C35_mark_kept",
    "Golisp.Props.C35_environment_assign_bypasses"
   ],
   "note": "Holds for every evaluation, not only sequences of define and set!, except through environment-assign!, which ignores the mark (shown)."
  },
  {
   "property": "C36",
   "status": "partial",
   "theorems": [
    "Golisp.Props.C36_refused",
    "Golisp.Props.C36_refused_apply",
    "Golisp.Props.C36_mark_kept",
    "Golisp.Props.C36_inherited",
    "Golisp.Props.C36_sandbox",
    "Golisp.Props.C36_restricted",
    "Golisp.Props.C36_older_closure_violation"
   ],
   "note": "Proved for environments created below the restricted one through environments themselves created after the mark; a closure made earlier in an inner environment escapes (violation proved). C36_restricted lists the restricted primitives."
  },
  {
   "property": "C37",
   "status": "proved",
   "theorems": [
    "Golisp.Props.C37_if",
    "Golisp.Props.C37_if_two",
    "Golisp.Props.C37_when",
    "Golisp.Props.C37_unless",
    "Golisp.Props.C37_cond",
    "Golisp.Props.C37_case",
    "Golisp.Props.C37_and",
    "Golisp.Props.C37_or"
   ],
   "note": "Each form is characterised exactly (iff) over evaluations of its parts; only the decisive branch appears in the relation."
  },
  {
   "property": "C38",
   "status": "proved",
   "theorems": [
    "Golisp.Props.C38_let",
    "Golisp.Props.C38_let_star",
    "Golisp.Props.C38_letrec",
    "Golisp.Props.C38_let_values",
    "Golisp.Props.C38_hidden",
    "Golisp.Props.C38_seen",
    "Golisp.Props.C38_only_new",
    "Golisp.Props.C38_named_let"
   ],
   "note": "let, let*, letrec, let-values and named let characterised exactly; inner names hidden outside, visible inside, enclosing environment unchanged."
  },
  {
   "property": "C39",
   "status": "proved",
   "theorems": [
    "Golisp.Props.C39_begin",
    "Golisp.Props.C39_seq_iff"
   ],
   "note": "begin and every body are the Seq relation; C39_seq_iff unfolds it into values/first failure."
  },
  {
   "property": "C40",
   "status": "partial",
   "theorems": [
    "Golisp.Props.C40_do",
    "Golisp.Props.C40_do_value_partial",
    "Golisp.Props.C40_do_error_partial",
    "Golisp.Props.C40_step_error_violation"
   ],
   "note": "do is characterised exactly as the code runs it. An error in a step expression is swallowed (violation proved with a witness), so the claim about errors holds only for test, body and result expressions."
  },
  {
   "property": "C41",
   "status": "partial",
   "theorems": [
    "Golisp.Props.C41_on_error",
    "Golisp.Props.C41_on_error_three",
    "Golisp.Props.C41_escapes_partial",
    "Golisp.Props.C41_fails_partial",
    "Golisp.Props.C41_message",
    "Golisp.Props.C41_panic",
    "Golisp.Props.C41_step_violation",
    "Golisp.Props.C41_search_violation"
   ],
   "note": "An error in any evaluation that is part of another, at any depth and through any of the modelled primitives, is the outcome of the whole and nothing is done after it, except in the first argument of on-error, in the step expressions of do (swallowed, shown) and in the predicate calls of find, find-tail and memp (another error takes its place, shown). Panics are stopped by nothing. on-error with two and with three arguments is characterised exactly."
  },
  {
   "property": "C42",
   "status": "proved",
   "theorems": [
    "Golisp.Props.C42_deterministic",
    "Golisp.Props.C42_apply_deterministic",
    "Golisp.Props.C42_depth",
    "Golisp.Props.C42_finishes_or_not"
   ],
   "note": ""
  },
  {
   "property": "C43",
   "status": "partial",
   "theorems": [
    "Golisp.Props.C43_value_partial",
    "Golisp.Props.C43_error_partial",
    "Golisp.Props.C43_plain_partial",
    "Golisp.Props.C43_dotted_violation",
    "Golisp.Props.C43_splice_open_violation"
   ],
   "note": "Proved for templates made of proper lists with marks of one argument, at any nesting, and splices of proper lists; false for dotted tails and for spliced lists that end in an empty cell (witnesses proved)."
  },
  {
   "property": "C44",
   "status": "proved",
   "theorems": [
    "Golisp.Props.C44_call",
    "Golisp.Props.C44_expand",
    "Golisp.Props.C44_defmacro",
    "Golisp.Props.C44_fixed"
   ],
   "note": "Call, expand and defmacro characterised exactly; definitions never change. A macro whose whole parameter list is a rest symbol is outside (see C31_rest_only_violation)."
  },
  {
   "property": "C45",
   "status": "partial",
   "theorems": [
    "Golisp.Props.C45_lookup_total",
    "Golisp.Props.C45_has_slot",
    "Golisp.Props.C45_has_slot_order",
    "Golisp.Props.C45_get_own",
    "Golisp.Props.C45_get",
    "Golisp.Props.C45_inherited_is_ancestors",
    "Golisp.Props.C45_get_single_parent",
    "Golisp.Props.C45_get_order_violation",
    "Golisp.Props.C45_nil_parent_violation"
   ],
   "note": "Lookup, presence and termination hold for every frame table (cycles included) whose parent slots hold frames or nil, and every map iteration order. Not as stated: with two parents the value found depends on Go's map order (C45_get_order_violation; single-parent tables are order independent), and a parent slot holding the Lisp nil makes a lookup of an absent slot panic (C45_nil_parent_violation)."
  },
  {
   "property": "C46",
   "status": "proved",
   "theorems": [
    "Golisp.Props.C46_set_local",
    "Golisp.Props.C46_get_after_set",
    "Golisp.Props.C46_remove_local",
    "Golisp.Props.C46_get_after_remove"
   ],
   "note": "Exact write sets of Set and Remove over all frames and slots; lookup after set and after remove."
  },
  {
   "property": "C47",
   "status": "proved",
   "theorems": [
    "Golisp.Props.C47_clone_same",
    "Golisp.Props.C47_clone_independent",
    "Golisp.Props.C47_clone_has_slot"
   ],
   "note": "Clone has the original's slots; any sequence of later slot changes to either is invisible in the other; has-slot? through shared ancestors agrees."
  },
  {
   "property": "C48",
   "status": "proved",
   "theorems": [
    "Golisp.Props.C48_send",
    "Golisp.Props.C48_send_calls",
    "Golisp.Props.C48_no_slot",
    "Golisp.Props.C48_not_function",
    "Golisp.Props.C48_self",
    "Golisp.Props.C48_slot_variable",
    "Golisp.Props.C48_shortcut"
   ],
   "note": "send is sound for every map order; exact when the slot seen from the receiver is unique (with several parents the choice depends on map order, see C45_get_order_violation). Parent slots must hold frames or nil."
  },
  {
   "property": "C49",
   "status": "partial",
   "theorems": [
    "Golisp.Props.C49_name",
    "Golisp.Props.C49_alone_partial",
    "Golisp.Props.C49_sequential",
    "Golisp.Props.C49_settled",
    "Golisp.Props.C49_progress",
    "Golisp.Props.C49_violation"
   ],
   "note": "False as stated: C49_violation has an interleaving in which two goroutines get different symbol objects for one name. Proved for all interleavings: the name is right (C49_name), identity holds when no two goroutines are inside the window for that name (C49_alone_partial), sequentially, and from the time the name is settled."
  },
  {
   "property": "C50",
   "status": "proved",
   "theorems": [
    "Golisp.Props.C50_name_injective",
    "Golisp.Props.C50_naked_differs",
    "Golisp.Props.C50_fresh",
    "Golisp.Props.C50_gensym",
    "Golisp.Props.C50_calls_differ"
   ],
   "note": "Counters are unbounded in the model (Go's int would wrap after 2^63 calls with one prefix)."
  },
  {
   "property": "C51",
   "status": "proved",
   "theorems": [
    "Golisp.Props.C51_fifo",
    "Golisp.Props.C51_results",
    "Golisp.Props.C51_program_order",
    "Golisp.Props.C51_blocked",
    "Golisp.Props.C51_write",
    "Golisp.Props.C51_try_write",
    "Golisp.Props.C51_read",
    "Golisp.Props.C51_make",
    "Golisp.Props.C51_make_violation"
   ],
   "note": "Every interleaving of any number of goroutines on any number of channels. The runtime's channel is part of the model. make-channel with a size beyond what Go can allocate panics (C51_make_violation)."
  },
  {
   "property": "C52",
   "status": "proved",
   "theorems": [
    "Golisp.Props.C52_read",
    "Golisp.Props.C52_write_close",
    "Golisp.Props.C52_close",
    "Golisp.Props.C52_stays_closed",
    "Golisp.Props.C52_no_panic"
   ],
   "note": "Every interleaving. A writer blocked when the channel is closed gets an error and its value is never delivered."
  },
  {
   "property": "C53",
   "status": "partial",
   "theorems": [
    "Golisp.Props.C53_once",
    "Golisp.Props.C53_value",
    "Golisp.Props.C53_join",
    "Golisp.Props.C53_self",
    "Golisp.Props.C53_delivers",
    "Golisp.Props.C53_same_function_violation"
   ],
   "note": "Fork and join as a transition system of goroutines, processes and calls; every interleaving. At most one join gets the value, the value is that of the procedure, claims and delivery never block. Missing: goroutines whose function was forked more than once share ParentProcess, so a join may return nil (C53_same_function_violation)."
  },
  {
   "property": "C54",
   "status": "partial",
   "theorems": [
    "Golisp.Props.C54_once",
    "Golisp.Props.C54_quiet_partial",
    "Golisp.Props.C54_restart",
    "Golisp.Props.C54_never_blocks",
    "Golisp.Props.C54_abandon_violation",
    "Golisp.Props.C54_reset_violation",
    "Golisp.Props.C54_reset_answer_violation"
   ],
   "note": "At most one run, not before an expiry, not after an abort; no call blocks. The claims that abandon before the timer prevents the run and that reset restarts the wait fail for races with an expired timer (violations); C54_quiet_partial is what holds."
  },
  {
   "property": "C55",
   "status": "proved",
   "theorems": [
    "Golisp.Props.C55_wake",
    "Golisp.Props.C55_sleep",
    "Golisp.Props.C55_count"
   ],
   "note": "Every interleaving of wakes, sleeps and timeouts."
  },
  {
   "property": "C56",
   "status": "proved",
   "theorems": [
    "Golisp.Props.C56_linearizable",
    "Golisp.Props.C56_adds",
    "Golisp.Props.C56_cas"
   ],
   "note": "Any number of goroutines each making any calls of the five primitives, any interleaving of the individual sync/atomic instructions, memory as a function from addresses to words. C56_linearizable includes errors for wrong arguments and the order in time. That each sync/atomic instruction is indivisible is assumed (Go guarantee)."
  },
  {
   "property": "C57",
   "status": "partial",
   "theorems": [
    "Golisp.Props.C57_to_json",
    "Golisp.Props.C57_to_lisp",
    "Golisp.Props.C57_text",
    "Golisp.Props.C57_round_trip",
    "Golisp.Props.C57_document",
    "Golisp.Props.C57_null_violation",
    "Golisp.Props.C57_inner_null_violation",
    "Golisp.Props.C57_large_violation",
    "Golisp.Props.C57_overflow_violation",
    "Golisp.Props.C57_colon_violation"
   ],
   "note": "Proved for integers up to 2^53 and keys without trailing colons (round trip from Lisp), and for documents without null whose numbers Lisp has (round trip from JSON), for every order of map iteration; the violations show each exclusion is needed. The text syntax of JSON belongs to encoding/json and is modelled only by its effect on the tree."
  },
  {
   "property": "C58",
   "status": "proved",
   "theorems": [
    "Golisp.Props.C58_split",
    "Golisp.Props.C58_split_pieces",
    "Golisp.Props.C58_split_chars",
    "Golisp.Props.C58_join_split",
    "Golisp.Props.C58_join",
    "Golisp.Props.C58_join_error",
    "Golisp.Props.C58_trim",
    "Golisp.Props.C58_trim_unique",
    "Golisp.Props.C58_trim_default",
    "Golisp.Props.C58_split_bytes"
   ],
   "note": "Strings are byte strings, as in Go; separators and sets of characters are read as UTF-8 the way Go does. An empty separator splits into characters."
  },
  {
   "property": "C59",
   "status": "partial",
   "theorems": [
    "Golisp.Props.C59_substring",
    "Golisp.Props.C59_substring_error_partial",
    "Golisp.Props.C59_negative_violation",
    "Golisp.Props.C59_tests",
    "Golisp.Props.C59_tests_error",
    "Golisp.Props.C59_length"
   ],
   "note": "A negative start makes substring panic instead of returning an error (C59_negative_violation); all other out-of-range indices are errors. Indices count bytes, not characters."
  },
  {
   "property": "C60",
   "status": "proved",
   "theorems": [
    "Golisp.Props.C60_permutation",
    "Golisp.Props.C60_sorted",
    "Golisp.Props.C60_error",
    "Golisp.Props.C60_not_list",
    "Golisp.Props.C60_insertion_sorts",
    "Golisp.Props.C60_insertion_in_range"
   ],
   "note": "Go's sort.Slice is modelled as an arbitrary program of comparisons and swaps; being in order is proved for every such program that keeps the library's promise (Sorts), and Go's insertion sort is proved to keep it."
  },
  {
   "property": "C61",
   "status": "proved",
   "theorems": [
    "Golisp.Props.C61_compare",
    "Golisp.Props.C61_order"
   ],
   "note": ""
  },
  {
   "property": "C62",
   "status": "partial",
   "theorems": [
    "Golisp.Props.C62_set_car",
    "Golisp.Props.C62_set_cdr",
    "Golisp.Props.C62_set_nth",
    "Golisp.Props.C62_set_nth_past",
    "Golisp.Props.C62_set_nth_low",
    "Golisp.Props.C62_not_pair_violation"
   ],
   "note": "Exact write sets proved; a target that is not a pair panics instead of giving an error (C62_not_pair_violation), and set-nth! takes indices below 1 as 1 (C62_set_nth_low)."
  },
  {
   "property": "C63",
   "status": "proved",
   "theorems": [
    "Golisp.Props.C63_remove_none",
    "Golisp.Props.C63_remove_first",
    "Golisp.Props.C63_remove_later"
   ],
   "note": "The element before the removed one must not be the nil pointer (hb); comparison is any function of heap and element."
  },
  {
   "property": "C64",
   "status": "partial",
   "theorems": [
    "Golisp.Props.C64_round_nearest",
    "Golisp.Props.C64_round_exact",
    "Golisp.Props.C64_of_int",
    "Golisp.Props.C64_add_nearest",
    "Golisp.Props.C64_sub_nearest",
    "Golisp.Props.C64_mul_nearest",
    "Golisp.Props.C64_div_nearest",
    "Golisp.Props.C64_add_multiply",
    "Golisp.Props.C64_subtract",
    "Golisp.Props.C64_divide",
    "Golisp.Props.C64_non_number_violation",
    "Golisp.Props.C19_non_number"
   ],
   "note": "Proved for all sequences of numbers with a float; the rounding of the float32 model is proved to be round-to-nearest-even and exact on representable values. Last clause is false: after the first float arguments are not checked (C64_non_number_violation); before it they are (C19_non_number)."
  },
  {
   "property": "C65",
   "status": "proved",
   "theorems": [
    "Golisp.Props.C65_form",
    "Golisp.Props.C65_items",
    "Golisp.Props.C65_unambiguous",
    "Golisp.Props.C65_broken",
    "Golisp.Props.C65_broken_items",
    "Golisp.Props.C65_exclusive",
    "Golisp.Props.C65_quote"
   ],
   "note": "Grammar stated in Verif/Grammar.lean. Texts outside both Form and Broken (for example a stray closing bracket, read as a symbol, `{ ]`, a dotted list that ends with the text) are not covered here; C16 covers totality for every text."
  },
  {
   "property": "C66",
   "status": "partial",
   "theorems": [
    "Golisp.Props.C66_make_frame",
    "Golisp.Props.C66_make_frame_odd",
    "Golisp.Props.C66_make_frame_key",
    "Golisp.Props.C66_has_slot",
    "Golisp.Props.C66_get_slot",
    "Golisp.Props.C66_get_slot_absent",
    "Golisp.Props.C66_get_slot_or_nil",
    "Golisp.Props.C66_set_slot",
    "Golisp.Props.C66_remove_slot",
    "Golisp.Props.C66_remove_slot_nil",
    "Golisp.Props.C66_clone",
    "Golisp.Props.C66_not_frame",
    "Golisp.Props.C66_not_key",
    "Golisp.Props.C66_send_super",
    "Golisp.Props.C66_send_super_absent",
    "Golisp.Props.C66_send_super_outside",
    "Golisp.Props.C66_send_super_self_violation"
   ],
   "note": "Every clause but one, over Calling (operator and arguments evaluated in order). The inherited method run by send-super does not see the receiver as self (C66_send_super_self_violation)."
  },
  {
   "property": "C67",
   "status": "proved",
   "theorems": [
    "Golisp.Props.C67_arithmetic",
    "Golisp.Props.C67_lists",
    "Golisp.Props.C67_misuse",
    "Golisp.Props.C67_count",
    "Golisp.Props.C67_counts_complete"
   ],
   "note": "Every row of the manual, the wrong-type rows and the argument counts of all modelled primitives."
  },
  {
   "property": "C68",
   "status": "partial",
   "theorems": [
    "Golisp.Props.C68_apply",
    "Golisp.Props.C68_function",
    "Golisp.Props.C68_primitive_partial",
    "Golisp.Props.C68_library_partial",
    "Golisp.Props.C68_not_procedure",
    "Golisp.Props.C68_not_list",
    "Golisp.Props.C68_no_list_violation",
    "Golisp.Props.C68_empty_violation",
    "Golisp.Props.C68_open_violation",
    "Golisp.Props.C68_form_violation"
   ],
   "note": "Full for user functions. For primitives, proved for non-empty lists closed by the nil pointer; the empty list and lists ending in an empty cell pass an extra empty list, (apply f) panics and special forms evaluate again (violations)."
  },
  {
   "property": "C69",
   "status": "proved",
   "theorems": [
    "Golisp.Props.C69_function",
    "Golisp.Props.C69_library",
    "Golisp.Props.C69_primitive",
    "Golisp.Props.C69_map",
    "Golisp.Props.C69_for_each",
    "Golisp.Props.C69_any",
    "Golisp.Props.C69_every",
    "Golisp.Props.C69_fold_left",
    "Golisp.Props.C69_fold_right",
    "Golisp.Props.C69_reduce_left",
    "Golisp.Props.C69_reduce_right",
    "Golisp.Props.C69_reduce_empty",
    "Golisp.Props.C69_filter_remove",
    "Golisp.Props.C69_find",
    "Golisp.Props.C69_find_tail",
    "Golisp.Props.C69_partition",
    "Golisp.Props.C69_not_procedure",
    "Golisp.Props.C69_not_procedure_one",
    "Golisp.Props.C69_not_procedure_two",
    "Golisp.Props.C69_not_list",
    "Golisp.Props.C69_map_not_list",
    "Golisp.Props.C69_fold_not_list",
    "Golisp.Props.C69_select_not_list"
   ],
   "note": "Both directions: the expression ends iff the specified calls end, in the same state. One call is described for user functions, manual entries and other primitives (C69_function, C69_library, C69_primitive). Lists holding Go nil pointers as elements are excluded for filter, remove and partition."
  },
  {
   "property": "C70",
   "status": "partial",
   "theorems": [
    "Golisp.Props.C70_thread",
    "Golisp.Props.C70_tap",
    "Golisp.Props.C70_first_argument_partial",
    "Golisp.Props.C70_value_violation"
   ],
   "note": "Order, number and effect of the evaluations proved for all steps. The value is evaluated again when it is a list or a symbol (violation proved); that the step gets the value itself is proved for values that evaluate to themselves."
  },
  {
   "property": "C71",
   "status": "proved",
   "theorems": [
    "Golisp.Props.C71_references",
    "Golisp.Props.C71_initial",
    "Golisp.Props.C71_session",
    "Golisp.Props.C71_crash",
    "Golisp.Props.C71_fatal",
    "Golisp.Props.C71_exact",
    "Golisp.Props.C71_read",
    "Golisp.Props.C71_program"
   ],
   "note": "For every program of the modelled primitives. Stack overflow and memory exhaustion are outside the model; that a broken frame parent may crash is the stated exception."
  },
  {
   "property": "C72",
   "status": "partial",
   "theorems": [
    "Golisp.Props.C72_text_partial",
    "Golisp.Props.C72_parsed",
    "Golisp.Props.C72_syntax_partial",
    "Golisp.Props.C72_nil",
    "Golisp.Props.C72_nil_syntax",
    "Golisp.Props.C72_first",
    "Golisp.Props.C72_crash",
    "Golisp.Props.C72_nil_violation"
   ],
   "note": "A form () at top level silently ends the evaluation (C72_nil, C72_nil_violation); texts without one are covered completely. Texts of reading errors are not modelled."
  },
  {
   "property": "C73",
   "status": "partial",
   "theorems": [
    "Golisp.Props.C73_texts",
    "Golisp.Props.C73_sticky",
    "Golisp.Props.C73_format_partial",
    "Golisp.Props.C73_surplus",
    "Golisp.Props.C73_unsupported",
    "Golisp.Props.C73_size",
    "Golisp.Props.C73_cut",
    "Golisp.Props.C73_crash",
    "Golisp.Props.C73_cut_violation",
    "Golisp.Props.C73_missing_violation",
    "Golisp.Props.C73_modifier_violation"
   ],
   "note": "The text is right unless a directive without @ follows one with it (the modifier sticks: C73_sticky gives the exact behaviour); missing arguments print as () and a control string that ends inside a directive panics, proved as violations."
  },
  {
   "property": "C74",
   "status": "partial",
   "theorems": [
    "Golisp.Props.C74_to_json_partial",
    "Golisp.Props.C74_to_lisp_partial",
    "Golisp.Props.C74_text",
    "Golisp.Props.C74_round_trip_partial",
    "Golisp.Props.C74_document_partial",
    "Golisp.Props.C74_lost_violation",
    "Golisp.Props.C74_empty_violation",
    "Golisp.Props.C74_head_violation",
    "Golisp.Props.C74_malformed_violation"
   ],
   "note": "Holds for values of integers (up to 2^53 through text), strings and non-empty lists and association lists; booleans, floats, null and empty arrays or objects are lost and malformed text panics, proved as violations."
  },
  {
   "property": "C75",
   "status": "proved",
   "theorems": [
    "Golisp.Props.C75_value",
    "Golisp.Props.C75_define",
    "Golisp.Props.C75_load"
   ],
   "note": "Textbook semantics in PureSpec; first order (functions are not values), comparisons of integers up to 2^24 as in C21."
  },
  {
   "property": "C76",
   "status": "proved",
   "theorems": [
    "Golisp.Props.C76_fib",
    "Golisp.Props.C76_ack",
    "Golisp.Props.C76_deriv",
    "Golisp.Samples.deriv_reads",
    "Golisp.Samples.bench_reads"
   ],
   "note": "The reader (C65, C72) and evaluator (C75) models run the shipped texts; the rest of bench.lsp is read but not evaluated."
  },
  {
   "property": "C77",
   "status": "proved",
   "theorems": [
    "Golisp.Props.C77_texts",
    "Golisp.Props.C77_split_join"
   ],
   "note": "Outcome of each call in terms of characters; the library's case mapping is a parameter."
  },
  {
   "property": "C78",
   "status": "partial",
   "theorems": [
    "Golisp.Props.C78_reads_partial",
    "Golisp.Props.C78_illegal",
    "Golisp.Props.C78_untouched",
    "Golisp.Props.C78_written",
    "Golisp.Props.C78_round_trip",
    "Golisp.Props.C78_two_ports_violation",
    "Golisp.Props.C78_text_violation"
   ],
   "note": "The full statement fails: reading a second port loses input of the first, and the end-of-file object is an ordinary symbol (both proved). C78_reads_partial needs that no other port is read."
  },
  {
   "property": "C79",
   "status": "partial",
   "theorems": [
    "Golisp.Props.C79_environments",
    "Golisp.Props.C79_tidy",
    "Golisp.Props.C79_tidy_start",
    "Golisp.Props.C79_define_lookup",
    "Golisp.Props.C79_assign_lookup",
    "Golisp.Props.C79_eval",
    "Golisp.Props.C79_eval_in",
    "Golisp.Props.C79_eval_refused",
    "Golisp.Props.C79_global_eval",
    "Golisp.Props.C79_definable_violation",
    "Golisp.Props.C79_top_level_violation"
   ],
   "note": "environment-definable? answers #t for protected names (C79_definable_violation) and find-top-level-environment can find the environment of a call (C79_top_level_violation); everything else proved"
  },
  {
   "property": "C80",
   "status": "partial",
   "theorems": [
    "Golisp.Props.C80_calls",
    "Golisp.Props.C80_sorted",
    "Golisp.Props.C80_by_primitive",
    "Golisp.Props.C80_ascending",
    "Golisp.Props.C80_descending",
    "Golisp.Props.C80_alphabetic",
    "Golisp.Props.C80_refused",
    "Golisp.Props.C80_large_violation"
   ],
   "note": "large integers are compared as 32-bit floats (C80_large_violation); that the library sorts is a hypothesis (Sorts), proved for insertion sort in C60"
  },
  {
   "property": "C81",
   "status": "proved",
   "theorems": [
    "Golisp.Props.C81_calculations",
    "Golisp.Props.C81_read_back"
   ],
   "note": "C81_calculations covers every primitive of the manual; C81_read_back composes writing and reading numerals; the functions of package math are host functions"
  },
  {
   "property": "C82",
   "status": "proved",
   "theorems": [
    "Golisp.Props.C82_frame_keys",
    "Golisp.Props.C82_frame_values",
    "Golisp.Props.C82_not_frame",
    "Golisp.Props.C82_str",
    "Golisp.Props.C82_write_line",
    "Golisp.Props.C82_write_line_nothing",
    "Golisp.Props.C82_written",
    "Golisp.Props.C82_error",
    "Golisp.Props.C82_intern",
    "Golisp.Props.C82_intern_other",
    "Golisp.Props.C82_definition_named",
    "Golisp.Props.C82_definition_unnamed",
    "Golisp.Props.C82_definition_other",
    "Golisp.Props.C82_definition_again",
    "Golisp.Props.C82_apply_slot",
    "Golisp.Props.C82_apply_slot_absent",
    "Golisp.Props.C82_apply_slot_not_frame",
    "Golisp.Props.C82_apply_super_outside",
    "Golisp.Props.C82_apply_super"
   ],
   "note": "all calls; map order, inheritance and argument values arbitrary"
  },
  {
   "property": "C83",
   "status": "partial",
   "theorems": [
    "Golisp.Props.C83_equal",
    "Golisp.Props.C83_unequal",
    "Golisp.Props.C83_reflexive",
    "Golisp.Props.C83_symmetric_violation",
    "Golisp.Props.C83_transitive_violation",
    "Golisp.Props.C83_equivalence_partial",
    "Golisp.Props.C83_length",
    "Golisp.Props.C83_copy",
    "Golisp.Props.C83_copy_same",
    "Golisp.Props.C83_copy_fresh",
    "Golisp.Props.C83_copy_ends",
    "Golisp.Props.C83_cycle",
    "Golisp.Props.C83_general_car_cdr",
    "Golisp.Props.C83_general_car_cdr_zero",
    "Golisp.Props.C83_general_car_cdr_negative"
   ],
   "note": "Comparison of frames is proved to decide an independently defined sameness; that sameness is an equivalence is refuted by programs (a missing slot counts as nil) and proved when no slot holds nil (C83_equivalence_partial). length, copy (exactly when it ends, what it gives, freshness) and general-car-cdr are proved in full."
  },
  {
   "property": "C84",
   "status": "partial",
   "theorems": [
    "Golisp.Props.C84_answer",
    "Golisp.Props.C84_refused_partial",
    "Golisp.Props.C84_extract_violation",
    "Golisp.Props.C84_one_answer",
    "Golisp.Props.C84_round_trip"
   ],
   "note": "A call as in the manual answers so, every other call is refused; excepted is extract-bytes with an end beyond 2^63, where the code does not refuse (violation proved)."
  },
  {
   "property": "C85",
   "status": "partial",
   "theorems": [
    "Golisp.Props.C85_write_string",
    "Golisp.Props.C85_write",
    "Golisp.Props.C85_newline",
    "Golisp.Props.C85_write_refused",
    "Golisp.Props.C85_kept",
    "Golisp.Props.C85_format_args",
    "Golisp.Props.C85_format",
    "Golisp.Props.C85_format_partial",
    "Golisp.Props.C85_format_surplus",
    "Golisp.Props.C85_format_unsupported",
    "Golisp.Props.C85_format_refused",
    "Golisp.Props.C85_format_crash",
    "Golisp.Props.C85_format_total"
   ],
   "note": "Everything but what format does against the statement: the @ modifier sticks (C85_format gives the exact text), missing arguments print as () and a control string that ends inside a directive crashes (C85_format_crash says exactly when)."
  },
  {
   "property": "C86",
   "status": "partial",
   "theorems": [
    "Golisp.Props.C86_load_partial",
    "Golisp.Props.C86_broken_partial",
    "Golisp.Props.C86_nil_violation",
    "Golisp.Props.C86_refused"
   ],
   "note": "Proved for files without a () form; at such a form the code stops without an error (violation proved)."
  },
  {
   "property": "C87",
   "status": "proved",
   "theorems": [
    "Golisp.Props.C87_answer",
    "Golisp.Props.C87_refused",
    "Golisp.Props.C87_one_answer",
    "Golisp.Props.C87_others",
    "Golisp.Props.C87_fresh",
    "Golisp.Props.C87_kept",
    "Golisp.Props.C87_total"
   ],
   "note": "For programs of one thread; several threads are C56."
  },
  {
   "property": "C88",
   "status": "proved",
   "theorems": [
    "Golisp.Props.C88_value",
    "Golisp.Props.C88_literal",
    "Golisp.Props.C88_load",
    "Golisp.Props.C88_shared_violation"
   ],
   "note": "Loops are without body, and their variables hold no closures (C88_shared_violation shows why). Comparison of numbers up to 2^24 (C21)."
  },
  {
   "property": "C89",
   "status": "partial",
   "theorems": [
    "Golisp.Props.C89_create",
    "Golisp.Props.C89_halve",
    "Golisp.Props.C89_divides",
    "Golisp.Props.C89_deriv_partial",
    "Golisp.Props.C89_deriv_violation"
   ],
   "note": "The rule for quotients is wrong (C89_deriv_violation); C89_deriv_partial covers expressions without quotients, at points where no factor is zero."
  },
  {
   "property": "C90",
   "status": "proved",
   "theorems": [
    "Golisp.Props.C90_alone",
    "Golisp.Props.C90_progress",
    "Golisp.Props.C90_invariants",
    "Golisp.Props.C90_gensym",
    "Golisp.Props.C90_register",
    "Golisp.Props.C90_counter",
    "Golisp.Props.C90_exchange"
   ],
   "note": "any number of threads, any programs, any schedule; a look at the state and an action are atomic steps"
  },
  {
   "property": "C91",
   "status": "partial",
   "theorems": [
    "Golisp.Props.C91_violation",
    "Golisp.Props.C91_partial",
    "Golisp.Props.C91_pool_partial",
    "Golisp.Props.C91_ends_partial",
    "Golisp.Props.C91_fib"
   ],
   "note": "the code violates the full statement: the method mark on function objects is shared by all threads (C91_violation); proved for the pure expressions of C75 among threads that leave their names and environments alone, and for pools of such threads without assumption"
  },
  {
   "property": "C92",
   "status": "proved",
   "theorems": [
    "Golisp.Props.C92_value",
    "Golisp.Props.C92_program",
    "Golisp.Props.C92_start",
    "Golisp.Props.C92_counter"
   ],
   "note": "Comparison of numbers up to 2^24 (C21); macros have a quasiquoted template without splicing as body; the language has no variable argument lists and no mapping procedures (those are in C88). Programs that fail or do not end are outside the relation."
  },
  {
   "property": "C93",
   "status": "proved",
   "theorems": [
    "Golisp.Props.C93_element",
    "Golisp.Props.C93_integers",
    "Golisp.Props.C93_fibonacci",
    "Golisp.Props.C93_once",
    "Golisp.Streams.streams_reads"
   ],
   "note": "the definitions proved are those named in DESIGN.md; intervals within 2^24 because of C21, scale-stream for endless streams only (it has no end test)"
  },
  {
   "property": "C94",
   "status": "partial",
   "theorems": [
    "Golisp.Props.C94_assertion_partial",
    "Golisp.Props.C94_value_partial",
    "Golisp.Props.C94_trial_partial",
    "Golisp.Props.C94_comparison_partial",
    "Golisp.Props.C94_capture_violation",
    "Golisp.Props.C94_msg_violation",
    "Golisp.Props.C94_twice_violation",
    "Golisp.Testing.testing_reads"
   ],
   "note": "proved for the four assertions about one expression, for assert-error and assert-nerror, for every expression, and for assert-eq and assert-neq where both values are plain data; violated by assert-eq (captures the name actual), assert-error (captures the name msg) and assert-memq (evaluates its object twice); the grouping macros are not covered"
  },
  {
   "property": "C95",
   "status": "partial",
   "theorems": [
    "Golisp.Props.C95_it_partial",
    "Golisp.Props.C95_error_partial",
    "Golisp.Props.C95_label_violation"
   ],
   "note": "Proved for string labels and every outcome of the expressions, with what is recorded of an error. A symbol as label is evaluated, so the name is not the label as written (violation proved)."
  },
  {
   "property": "C96",
   "status": "partial",
   "theorems": [
    "Golisp.Props.C96_context_partial",
    "Golisp.Props.C96_clause_partial",
    "Golisp.Props.C96_all_partial",
    "Golisp.Props.C96_label_violation",
    "Golisp.Props.C96_capture_violation"
   ],
   "note": "String labels only: a symbol as label is evaluated (C96_label_violation). A variable named it-clause in a test is captured (C96_capture_violation). At least one test."
  }
 ]
}