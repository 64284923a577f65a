{
 "claims": [
  {
   "property": "C01",
   "status": "proved",
   "theorems": [
    "Verif.C01_iter",
    "Verif.C01_len",
    "Verif.C01_getItem",
    "Verif.C01_getItem_explicit",
    "Verif.C01_contains",
    "Verif.C01_reversed"
   ],
   "note": ""
  },
  {
   "property": "C02",
   "status": "partial",
   "theorems": [
    "Verif.C02_index",
    "Verif.C02_index_getItem",
    "Verif.C02_bounded_partial",
    "Verif.C02_bounded_counterexample"
   ],
   "note": "Full bounded form is false of the code (missing bounds are replaced by range values used as positions): C02_bounded_counterexample. Proved: unbounded form, and bounded form with both bounds given."
  },
  {
   "property": "C03",
   "status": "proved",
   "theorems": [
    "Verif.C03_two_arg",
    "Verif.C03_bounds",
    "Verif.C03_direction_words",
    "Verif.C03_roundtrip",
    "Verif.C03_fromRange",
    "Verif.C03_eq",
    "Verif.C03_slice",
    "Verif.C03_slice_error"
   ],
   "note": ""
  },
  {
   "property": "C04",
   "status": "proved",
   "theorems": [
    "Verif.C04_new_str",
    "Verif.C04_new_int",
    "Verif.C04_new_other",
    "Verif.C04_bit",
    "Verif.C04_roundtrip",
    "Verif.C04_str_injective",
    "Verif.C04_eq"
   ],
   "note": ""
  },
  {
   "property": "C05",
   "status": "proved",
   "theorems": [
    "Verif.C05_and",
    "Verif.C05_or",
    "Verif.C05_xor",
    "Verif.C05_not",
    "Verif.C05_comm",
    "Verif.C05_assoc",
    "Verif.C05_deMorgan",
    "Verif.C05_not_not",
    "Verif.C05_boolean",
    "Verif.C05_dominate",
    "Verif.C05_range",
    "Verif.C05_binop"
   ],
   "note": ""
  },
  {
   "property": "C06",
   "status": "proved",
   "theorems": [
    "Verif.C06_bit_expr",
    "Verif.C06_mixed",
    "Verif.C06_no_error"
   ],
   "note": ""
  },
  {
   "property": "C07",
   "status": "partial",
   "theorems": [
    "Verif.C07_noresolver",
    "Verif.C07_agree_counterexample",
    "Verif.C07_agree_partial"
   ],
   "note": "Full agreement is false of the code: with COCOTB_RESOLVE_X=ones (or random) int(Logic('X')) can be 1 while bool(Logic('X')) is False (C07_agree_counterexample). Proved: no-resolver case completely; agreement for error/weak/zeros and for all values with a Boolean meaning under every resolver."
  },
  {
   "property": "C08",
   "status": "proved",
   "theorems": [
    "Verif.C08_logic",
    "Verif.C08_bit",
    "Verif.C08_names",
    "Verif.C08_array",
    "Verif.C08_idempotent",
    "Verif.C08_logicarray"
   ],
   "note": ""
  },
  {
   "property": "C09",
   "status": "proved",
   "theorems": [
    "Verif.C09_from_unsigned",
    "Verif.C09_range_arg"
   ],
   "note": ""
  },
  {
   "property": "C10",
   "status": "proved",
   "theorems": [
    "Verif.C10_from_signed",
    "Verif.C10_roundtrip"
   ],
   "note": ""
  },
  {
   "property": "C11",
   "status": "proved",
   "theorems": [
    "Verif.C11_wrap_unsigned",
    "Verif.C11_wrap_signed",
    "Verif.C11_errors"
   ],
   "note": ""
  },
  {
   "property": "C12",
   "status": "proved",
   "theorems": [
    "Verif.C12_int_ctor",
    "Verif.C12_no_range"
   ],
   "note": ""
  },
  {
   "property": "C13",
   "status": "proved",
   "theorems": [
    "Verif.C13_str_ctor",
    "Verif.C13_str_range",
    "Verif.C13_roundtrip"
   ],
   "note": ""
  },
  {
   "property": "C14",
   "status": "partial",
   "theorems": [
    "Verif.C14_counterexample",
    "Verif.C14_to_unsigned_partial",
    "Verif.C14_dash",
    "Verif.C14_is_resolvable",
    "Verif.C14_to_signed"
   ],
   "note": "Full statement is false of the code: int(s, 2) reads a leading '-' element as a sign, so to_unsigned() of '-1' is -1 (C14_counterexample; C14_dash says exactly what happens). Proved: every array whose leftmost element is not '-'."
  },
  {
   "property": "C15",
   "status": "proved",
   "theorems": [
    "Verif.C15_to_bytes",
    "Verif.C15_from_bytes",
    "Verif.C15_bytes_roundtrip",
    "Verif.C15_array_roundtrip",
    "Verif.C15_errors"
   ],
   "note": ""
  },
  {
   "property": "C16",
   "status": "partial",
   "theorems": [
    "Verif.C16_counterexample",
    "Verif.C16_counterexample_run",
    "Verif.C16_history_partial",
    "Verif.C16_reads_invisible",
    "Verif.C16_copies"
   ],
   "note": "Full statement is false of the code: == between two arrays with cached integers compares the integers, so LogicArray('L') == from_unsigned(0,1) changes from False to True after int() was called (C16_counterexample, C16_counterexample_run). Proved for every program whose == comparisons involve no L, H or - elements; all other methods unrestricted."
  },
  {
   "property": "C17",
   "status": "proved",
   "theorems": [
    "Verif.C17_array_get",
    "Verif.C17_array_set",
    "Verif.C17_array_getSlice",
    "Verif.C17_array_setSlice",
    "Verif.C17_logicarray_get",
    "Verif.C17_logicarray_set",
    "Verif.C17_logicarray_getSlice",
    "Verif.C17_logicarray_setSlice"
   ],
   "note": ""
  },
  {
   "property": "C18",
   "status": "proved",
   "theorems": [
    "Verif.C18_bitop",
    "Verif.C18_invert",
    "Verif.C18_laws",
    "Verif.C18_integers",
    "Verif.C18_invert_integer"
   ],
   "note": ""
  },
  {
   "property": "C19",
   "status": "partial",
   "theorems": [
    "Verif.C19_counterexample",
    "Verif.C19_eq_partial",
    "Verif.C19_equivalence_partial",
    "Verif.C19_refl",
    "Verif.C19_str",
    "Verif.C19_list"
   ],
   "note": "Full statement is false of the code (C19_counterexample, same cause as C16). Proved: reflexivity always; structural equality, symmetry, transitivity for arrays without L, H, -, and for all arrays when one operand has no cached integer; comparison with strings and lists always."
  },
  {
   "property": "C20",
   "status": "partial",
   "theorems": [
    "Verif.C20_fixed_width",
    "Verif.C20_grouping_counterexample",
    "Verif.C20_grouping_partial",
    "Verif.C20_decimal",
    "Verif.C20_faithful",
    "Verif.C20_errors"
   ],
   "note": "Full statement is false of the code for '#_o': separators are counted after adding the prefix length (C20_grouping_counterexample). Proved for every other presentation."
  },
  {
   "property": "C21",
   "status": "proved",
   "theorems": [
    "Verif.C21_new",
    "Verif.C21_new_wf",
    "Verif.C21_eq",
    "Verif.C21_setRange",
    "Verif.C21_count",
    "Verif.C21_contains",
    "Verif.C21_index"
   ],
   "note": ""
  },
  {
   "property": "C22",
   "status": "proved",
   "theorems": [
    "Verif.C22_steps",
    "Verif.C22_errors",
    "Verif.C22_bad_unit",
    "Verif.C22_roundtrip"
   ],
   "note": ""
  },
  {
   "property": "C23",
   "status": "partial",
   "theorems": [
    "Verif.C23_exact_partial",
    "Verif.C23_total",
    "Verif.C23_compose",
    "Verif.C23_monotone",
    "Verif.C23_bad_unit",
    "Verif.C23_case"
   ],
   "note": "Proved for exact arithmetic. The result in a unit other than steps is a float: exactness is false beyond 53 bits (C139_exact_counterexample); C139_convert says what is returned."
  },
  {
   "property": "C24",
   "status": "proved",
   "theorems": [
    "Verif.C24_reject",
    "Verif.C24_steps",
    "Verif.C24_positive"
   ],
   "note": ""
  },
  {
   "property": "C25",
   "status": "partial",
   "theorems": [
    "Verif.C25_accept_counterexample",
    "Verif.C25_accept_partial",
    "Verif.C25_reject",
    "Verif.C25_start",
    "Verif.C25_same",
    "Verif.C25_gpi_overflow"
   ],
   "note": "'accepted parameters give phases of at least one step' is false of the constructor: period_high=0 is accepted and fails only at start (C25_accept_counterexample); with the GPI implementation counts of 2^64 and more wrap (C25_gpi_overflow). Everything else is proved: the exact waveform at every time for both implementations, and which starts are rejected."
  },
  {
   "property": "C26",
   "status": "proved",
   "theorems": [
    "Verif.C26_cycles",
    "Verif.C26_clockcycles",
    "Verif.C26_unique",
    "Verif.C26_counts_edges",
    "Verif.C26_not_late",
    "Verif.C26_edge_type"
   ],
   "note": ""
  },
  {
   "property": "C27",
   "status": "proved",
   "theorems": [
    "Verif.C27_runs_at_most_once",
    "Verif.C27_returns_only_when_empty",
    "Verif.C27_first_in_first_out",
    "Verif.C27_front_goes_first"
   ],
   "note": ""
  },
  {
   "property": "C28",
   "status": "partial",
   "theorems": [
    "Verif.C28_resumed_once_per_wait",
    "Verif.C28_queued_once",
    "Verif.C28_registered_once_counterexample",
    "Verif.C28_registered_once_partial",
    "Verif.C28_no_internal_error"
   ],
   "note": "'A waiting task is registered with exactly one trigger' is false in histories in which the simulator refuses to arm a callback: the stale registration stays (C28_registered_once_counterexample). Proved for all other histories; the once-per-wait resumption and single queue entry are proved for all histories."
  },
  {
   "property": "C29",
   "status": "proved",
   "theorems": [
    "Verif.C29_done_is_final",
    "Verif.C29_cancel_and_kill_of_done",
    "Verif.C29_queries_agree",
    "Verif.C29_result_is_returned_value"
   ],
   "note": ""
  },
  {
   "property": "C30",
   "status": "partial",
   "theorems": [
    "Verif.C30_every_callback_once_partial",
    "Verif.C30_no_callback_before_done",
    "Verif.C30_announced_before_time_advances",
    "Verif.C30_nobody_left_waiting",
    "Verif.C30_every_callback_once_counterexample",
    "Verif.C30_woken_only_when_done",
    "Verif.C30_await_done_does_not_block",
    "Verif.C30_end_wakes_all_waiters"
   ],
   "note": "'Every callback exactly once' is false for a callback added while the task is announcing its completion: it is called at once and then again (C30_every_callback_once_counterexample). Proved for callbacks registered before the task is done; announcement to waiters is proved in full."
  },
  {
   "property": "C31",
   "status": "proved",
   "theorems": [
    "Verif.C31_cancellation_delivered",
    "Verif.C31_no_longer_waiting",
    "Verif.C31_cancel_returns_true_iff"
   ],
   "note": ""
  },
  {
   "property": "C32",
   "status": "partial",
   "theorems": [
    "Verif.C32_woken_means_fired",
    "Verif.C32_armed_iff_waiters_counterexample",
    "Verif.C32_armed_iff_waiters_partial",
    "Verif.C32_armed_only_with_waiters",
    "Verif.C32_fire_wakes_all_in_order",
    "Verif.C32_fire_resumes_normally",
    "Verif.C32_woken_only_by_its_trigger",
    "Verif.C32_waits_for_what_it_yielded",
    "Verif.C32_cancel_disarms"
   ],
   "note": "'Armed exactly while somebody waits' is false after the simulator once refused to arm the trigger (C32_armed_iff_waiters_counterexample). Proved for histories without such a refusal; the wake-up parts are proved for all histories."
  },
  {
   "property": "C33",
   "status": "proved",
   "theorems": [
    "Verif.C33_is_set_reports_last",
    "Verif.C33_set_wakes_all",
    "Verif.C33_nobody_waits_for_set_event",
    "Verif.C33_wait_blocks_iff_not_set",
    "Verif.C33_woken_only_by_set"
   ],
   "note": ""
  },
  {
   "property": "C34",
   "status": "proved",
   "theorems": [
    "Verif.C34_lock_is_a_mutex",
    "Verif.C34_at_most_one_holder",
    "Verif.C34_release_unlocked_raises"
   ],
   "note": ""
  },
  {
   "property": "C35",
   "status": "proved",
   "theorems": [
    "Verif.C35_free_lock_has_no_waiters",
    "Verif.C35_release_grants_oldest",
    "Verif.C35_first_come_first_served"
   ],
   "note": ""
  },
  {
   "property": "C36",
   "status": "partial",
   "theorems": [
    "Verif.C36_free_lock_obtainable",
    "Verif.C36_not_stranded_counterexample",
    "Verif.C36_cancelled_waiter_partial"
   ],
   "note": "False in full: a lock granted to a task which is cancelled before it runs again stays locked (C36_not_stranded_counterexample). Proved: cancelling an acquire that still waits withdraws it for good, and a free lock is obtained without blocking."
  },
  {
   "property": "C37",
   "status": "proved",
   "theorems": [
    "Verif.C37_capacity_never_exceeded",
    "Verif.C37_full_empty_iff",
    "Verif.C37_put_nowait_raises_iff_full",
    "Verif.C37_get_nowait_raises_iff_empty"
   ],
   "note": ""
  },
  {
   "property": "C38",
   "status": "proved",
   "theorems": [
    "Verif.C38_nothing_lost_or_duplicated",
    "Verif.C38_each_call_at_most_once"
   ],
   "note": ""
  },
  {
   "property": "C39",
   "status": "proved",
   "theorems": [
    "Verif.C39_order",
    "Verif.C39_fifo"
   ],
   "note": ""
  },
  {
   "property": "C40",
   "status": "partial",
   "theorems": [
    "Verif.C40_no_lost_wakeup_counterexample",
    "Verif.C40_waiters_woken_partial",
    "Verif.C40_no_lost_wakeup_partial"
   ],
   "note": "The full statement is false of the code (C40_no_lost_wakeup_counterexample): a wake-up given to a waiter that has been cancelled but has not run yet is lost. Proved for all histories that do not cancel a task inside put/get and kill one only while it has not been woken (finished tasks still in the line are covered)."
  },
  {
   "property": "C41",
   "status": "proved",
   "theorems": [
    "Verif.C41_first_completed",
    "Verif.C41_losers_cancelled"
   ],
   "note": ""
  },
  {
   "property": "C42",
   "status": "proved",
   "theorems": [
    "Verif.C42_results_in_order"
   ],
   "note": ""
  },
  {
   "property": "C43",
   "status": "partial",
   "theorems": [
    "Verif.C43_returns_only_when_done",
    "Verif.C43_index",
    "Verif.C43_raises_only_cancelled",
    "Verif.C43_cancels_exactly_when",
    "Verif.C43_cancel_delivered",
    "Verif.C43_others_untouched",
    "Verif.C43_start_untouched",
    "Verif.C43_caller_woken",
    "Verif.C43_leaves_nothing_running_partial",
    "Verif.C43_leaves_nothing_running_counterexample"
   ],
   "note": "Returning, index, cancellation and user tasks: proved for every reachable state. 'Leaves nothing running' is false of the code for a caller cancelled twice before it runs (counterexample proved) or killed; proved otherwise."
  },
  {
   "property": "C44",
   "status": "partial",
   "theorems": [
    "Verif.C44_returns_only_when_done",
    "Verif.C44_leaves_only_when_done_partial",
    "Verif.C44_never_closed_partial",
    "Verif.C44_parent_woken",
    "Verif.C44_leaves_only_when_done_counterexample",
    "Verif.C44_unreachable_code_counterexample"
   ],
   "note": "Leaving the block normally or with the group happens only when every child is done (C44_returns_only_when_done, unconditional). The full statement for every way of leaving is false of the code: counterexamples are proved (a task cancelled twice before it runs is closed in __aexit__ with children running; 'Reached unreachable code' is reachable). C44_leaves_only_when_done_partial proves it for histories in which the block's task is not cancelled again before it has dealt with an earlier cancellation, is not killed and lets CancelledError out, except for fatal exceptions."
  },
  {
   "property": "C45",
   "status": "partial",
   "theorems": [
    "Verif.C45_group",
    "Verif.C45_normal",
    "Verif.C45_reported_partial",
    "Verif.C45_cancels_exactly_when",
    "Verif.C45_failing_child_cancels",
    "Verif.C45_continue_cancels_nothing",
    "Verif.C45_cancel_delivered",
    "Verif.C45_add",
    "Verif.C45_add_refused",
    "Verif.C45_reported_counterexample"
   ],
   "note": "Group contents, cancellations, delivery and start_soon's refusals are proved for all histories. That failures are reported however the block is left is false of the code (failures are dropped when the waiting block is cancelled): C45_reported_counterexample; C45_reported_partial covers the ways of leaving that do not propagate a cancellation, a closure or a fatal exception."
  },
  {
   "property": "C46",
   "status": "partial",
   "theorems": [
    "Verif.C46_history",
    "Verif.C46_last_write_wins_partial",
    "Verif.C46_mixed_actions_counterexample"
   ],
   "note": "The history theorem (C46_history) is unconditional. 'Last write wins' is false of the code when Deposit and Immediate/other actions are mixed: a pending Deposit followed by an Immediate write is applied later and overrides the newer value (C46_mixed_actions_counterexample). Proved when all writes to an object in a phase use the same action."
  },
  {
   "property": "C47",
   "status": "partial",
   "theorems": [
    "Verif.C47_deposit_not_early",
    "Verif.C47_deposit_applied_next",
    "Verif.C47_phase_requested",
    "Verif.C47_direct_at_once",
    "Verif.C47_direct_scalar",
    "Verif.C47_freeze_release_scalar",
    "Verif.C47_read_only",
    "Verif.C47_read_write",
    "Verif.C47_trusting",
    "Verif.C47_setimmediatevalue_counterexample",
    "Verif.C47_setimmediatevalue_partial",
    "Verif.C47_refused_counterexample",
    "Verif.C47_refused_partial"
   ],
   "note": "Deferral, direct writes, read-only rejection and phase changes are proved. False of the code: setimmediatevalue outside the read-write phase is deferred because its action is an enum alias of Deposit (C47_setimmediatevalue_counterexample); a value accepted by the handle but refused by the C layer stops every write queued behind it (C47_refused_counterexample). Both have _partial theorems."
  },
  {
   "property": "C48",
   "status": "partial",
   "theorems": [
    "Verif.C48_logic_array_int",
    "Verif.C48_integer_int",
    "Verif.C48_enum_int_counterexample",
    "Verif.C48_enum_int_partial",
    "Verif.C48_logic_int",
    "Verif.C48_read_back"
   ],
   "note": "False for signed enums beyond 32 bits: a negative value becomes a '-...' string (C48_enum_int_counterexample). Proved for logic, logic array and integer objects, and for all other enums."
  },
  {
   "property": "C49",
   "status": "partial",
   "theorems": [
    "Verif.C49_length_mismatch",
    "Verif.C49_no_length",
    "Verif.C49_assign",
    "Verif.C49_shape_needed",
    "Verif.C49_refused_without_effect_counterexample",
    "Verif.C49_read",
    "Verif.C49_read_succeeds",
    "Verif.C49_signals_distinct"
   ],
   "note": "Acceptance, element order, reading and length checks are proved. 'A refused assignment has no effect' is false of the code for nested arrays: rows before the bad one have been written (C49_refused_without_effect_counterexample); C49_length_mismatch proves it for the outer dimension."
  },
  {
   "property": "C50",
   "status": "partial",
   "theorems": [
    "Verif.C50_plan",
    "Verif.C50_plan_random",
    "Verif.C50_recorded_once",
    "Verif.C50_ends",
    "Verif.C50_sim_end_counterexample",
    "Verif.C50_sim_end_partial"
   ],
   "note": "Order, exactly-once recording, single tear-down and progress are proved for every history. False of the code: when the simulator ends between two tests (a test is made but waits for its Timer(1)), cancelling the unstarted test completes nothing, so the remaining tests are never recorded and no report is written (C50_sim_end_counterexample); proved for the end of the simulation while a test runs or after the last one (C50_sim_end_partial)."
  },
  {
   "property": "C51",
   "status": "proved",
   "theorems": [
    "Verif.C51_counters",
    "Verif.C51_number"
   ],
   "note": ""
  },
  {
   "property": "C52",
   "status": "proved",
   "theorems": [
    "Verif.C52_verdict",
    "Verif.C52_decided"
   ],
   "note": ""
  },
  {
   "property": "C53",
   "status": "partial",
   "theorems": [
    "Verif.C53_limit_counterexample_init",
    "Verif.C53_limit_counterexample_expected",
    "Verif.C53_limit_partial",
    "Verif.C53_no_limit"
   ],
   "note": "False of the code in two ways: a test that fails to initialise counts as a failure but does not stop the regression (C53_limit_counterexample_init), and a test that never ran is recorded as an expected failure when its expect_error covers the internal exception, for instance BaseException (C53_limit_counterexample_expected). Proved otherwise."
  },
  {
   "property": "C54",
   "status": "proved",
   "theorems": [
    "Verif.C54_seeds"
   ],
   "note": ""
  },
  {
   "property": "C55",
   "status": "partial",
   "theorems": [
    "Verif.C55_once",
    "Verif.C55_all_done",
    "Verif.C55_only_if_ended",
    "Verif.C55_goes_on",
    "Verif.C55_shutdown_counterexample_kill",
    "Verif.C55_shutdown_counterexample_create",
    "Verif.C55_shutdown_partial",
    "Verif.C55_shutdown_late",
    "Verif.C55_ended_by",
    "Verif.C55_timeout"
   ],
   "note": "Proved for all histories: at most one completion, only after every task has ended, only if something ended the test. The claim that a test that is ended completes at once is false of the code in two cases, both proved as counterexamples: a task that kills the main task is itself running, so cancelling it raises out of the shutdown, which is then abandoned for good although it is marked as begun; and a task started by the cleanup code of a task being cancelled is not cancelled itself. Without those (C55_shutdown_partial) the claim holds; with the second alone it holds once those tasks have ended (C55_shutdown_late). A test that is cancelled before it is started never completes (see C50_sim_end)."
  },
  {
   "property": "C56",
   "status": "partial",
   "theorems": [
    "Verif.C56_verdict_counterexample_join",
    "Verif.C56_verdict_counterexample_late",
    "Verif.C56_verdict_partial",
    "Verif.C56_exception",
    "Verif.C56_pass",
    "Verif.C56_handled"
   ],
   "note": "The full claim is false of the code in two cases, both proved as counterexamples: a failing task that another task waits for through the deprecated join() counts as unhandled, because only await registers with the trigger that is looked at; and if the last task left of a test being shut down (one started by cleanup code) fails, the test completes before that failure is recorded. Without those the verdict is exactly the list of unhandled failures in order. Tasks made with Task(...) directly are not registered with the test and are not modelled."
  },
  {
   "property": "C57",
   "status": "proved",
   "theorems": [
    "Verif.C57_product",
    "Verif.C57_parametrize"
   ],
   "note": ""
  },
  {
   "property": "C58",
   "status": "partial",
   "theorems": [
    "Verif.C58_names",
    "Verif.C58_distinct_counterexample",
    "Verif.C58_distinct_partial",
    "Verif.C58_numbered",
    "Verif.C58_values_counterexample",
    "Verif.C58_factory_names"
   ],
   "note": "The naming rule is proved for all options. That different labels give different names is false of the code when labels contain slashes, for instance through Param names (C58_distinct_counterexample), and different values can have the same label, for instance True and 'True' (C58_values_counterexample). Without slashes names are distinct whenever labels are (C58_distinct_partial). TestFactory names are always distinct."
  },
  {
   "property": "C59",
   "status": "proved",
   "theorems": [
    "Verif.C59_add_option",
    "Verif.C59_generate"
   ],
   "note": ""
  },
  {
   "property": "C60",
   "status": "partial",
   "theorems": [
    "Verif.C60_legal",
    "Verif.C60_per_character",
    "Verif.C60_unchanged_counterexample",
    "Verif.C60_unchanged_partial",
    "Verif.C60_normalized",
    "Verif.C60_paths",
    "Verif.C60_report_counterexample",
    "Verif.C60_report_partial"
   ],
   "note": "Legality of escaped text, one escape per character, unchanged text up to U+FFFF and removal of the base directory are proved. False of the code: legal characters beyond U+FFFF are escaped, because the pattern writes \\u10000 with a four-digit escape (C60_unchanged_counterexample), and values of properties and attachments are written unescaped (C60_report_counterexample)."
  },
  {
   "property": "C61",
   "status": "proved",
   "theorems": [
    "Verif.C61_counters",
    "Verif.C61_cases",
    "Verif.C61_get_results"
   ],
   "note": ""
  },
  {
   "property": "C62",
   "status": "partial",
   "theorems": [
    "Verif.C62_cases",
    "Verif.C62_exit",
    "Verif.C62_flat",
    "Verif.C62_totals_counterexample",
    "Verif.C62_totals_partial"
   ],
   "note": "Every test case is kept once under its suite and the exit code is proved. The totals are false of the code: suites merged under one name keep the attributes of the first, so get_results misses tests and failures of the later ones (C62_totals_counterexample); proved when suite names are distinct."
  },
  {
   "property": "C63",
   "status": "proved",
   "theorems": [
    "Verif.C63_trim",
    "Verif.C63_str",
    "Verif.C63_as_bool",
    "Verif.C63_bool",
    "Verif.C63_list",
    "Verif.C63_list_parts",
    "Verif.C63_int"
   ],
   "note": ""
  },
  {
   "property": "C64",
   "status": "partial",
   "theorems": [
    "Verif.C64_blocked_while_called",
    "Verif.C64_call_history",
    "Verif.C64_thread_known",
    "Verif.C64_always_delivered_counterexample",
    "Verif.C64_always_delivered_partial",
    "Verif.C64_exclusive_counterexample",
    "Verif.C64_simulator_counterexample",
    "Verif.C64_exclusive_partial"
   ],
   "note": "Proved for every interleaving: a thread that made a resume call is inside it until the coroutine is over, each call is made, started, finished and delivered at most once and in that order with one and the same outcome, and running threads are known to the event loop. False of the code: a thread whose call is over runs at once while the event loop runs further callbacks (C64_exclusive_counterexample), by a race it can even run while the simulator has control (C64_simulator_counterexample), and a thread whose call's task is cancelled before it ran is never woken (C64_always_delivered_counterexample). C64_exclusive_partial: turns are taken if the operating system runs bridge threads only while the event-loop thread is blocked on them."
  },
  {
   "property": "C65",
   "status": "partial",
   "theorems": [
    "Verif.C65_result_once",
    "Verif.C65_scheduled",
    "Verif.C65_not_idle_counterexample",
    "Verif.C65_not_idle_partial",
    "Verif.C65_all_delivered_partial"
   ],
   "note": "Exactly-once delivery in order is proved for every interleaving. 'Not idle while a thread is able to run' is false of the code: pending_threads is shortened while it is iterated over, so the thread after a finished one is skipped, and stays unstarted if the finished thread's task was cancelled (C65_not_idle_counterexample). Proved when no task awaiting a bridged function is cancelled and threads run only while they are waited for."
  },
  {
   "property": "C66",
   "status": "partial",
   "theorems": [
    "Verif.C66_order",
    "Verif.C66_all",
    "Verif.C66_returns",
    "Verif.C66_counterexample",
    "Verif.C66_partial"
   ],
   "note": "Order and uniqueness are proved for every history; completeness when no callback raises. False of the code otherwise: an exception in a callback leaves the loop, and the later callbacks are not called (C66_counterexample)."
  },
  {
   "property": "C67",
   "status": "proved",
   "theorems": [
    "Verif.C67_result_or_timeout",
    "Verif.C67_timer_removed",
    "Verif.C67_timeout_cancels"
   ],
   "note": "The timer and the awaitable are the two tasks of the call of wait; the timer's code is the await of one simulator-backed trigger that nobody else awaits."
  },
  {
   "property": "C68",
   "status": "proved",
   "theorems": [
    "Verif.C68_combine",
    "Verif.C68_combine_all_fired",
    "Verif.C68_first",
    "Verif.C68_empty_combine",
    "Verif.C68_arguments"
   ],
   "note": "The awaitables of Combine and First are tasks running arbitrary code, so nested uses are instances."
  },
  {
   "property": "C69",
   "status": "partial",
   "theorems": [
    "Verif.C69_steps",
    "Verif.C69_units_partial"
   ],
   "note": "get_sim_time('step') is proved in full. In other units the exact scaling is proved for exact arithmetic; the float returned is only the closest one (C139_nearest), see C139_exact_counterexample."
  },
  {
   "property": "C70",
   "status": "partial",
   "theorems": [
    "Verif.C70_same_object_counterexample",
    "Verif.C70_same_object_partial",
    "Verif.C70_same_object_without_listing",
    "Verif.C70_listing_once",
    "Verif.C70_right_object",
    "Verif.C70_one_object_per_handle",
    "Verif.C70_absent_raises",
    "Verif.C70_setattr_raises",
    "Verif.C70_iteration_counterexample",
    "Verif.C70_iteration_partial",
    "Verif.C70_array_iteration"
   ],
   "note": "Two parts are false of the code: an object found with GPIDiscovery.NATIVE is replaced when the children are listed (C70_same_object_counterexample), and a child looked up in another spelling where the simulator ignores case is visited twice (C70_iteration_counterexample). Proved for everything else: identity without NATIVE lookups (and with them as long as nothing is listed), errors for absent children, exactly-once iteration when each child has one spelling."
  },
  {
   "property": "C71",
   "status": "proved",
   "theorems": [
    "Verif.C71_plusargs",
    "Verif.C71_names_once"
   ],
   "note": ""
  },
  {
   "property": "C72",
   "status": "partial",
   "theorems": [
    "Verif.C72_counterexample",
    "Verif.C72_partial",
    "Verif.C72_slice_partial",
    "Verif.C72_logic",
    "Verif.C72_logic_slice"
   ],
   "note": "Full statement is false of the code: with the warning enabled arr[8] of an '8 to 11' array raises IndexError because the warning text indexes the range by position (C72_counterexample). Proved: for ranges n-1 downto 0 and 0 to n-1 the results agree, for indices (C72_partial) and slices (C72_slice_partial); for values of packed signals they always agree (C72_logic, C72_logic_slice)."
  },
  {
   "property": "C73",
   "status": "partial",
   "theorems": [
    "Verif.C73_counterexample",
    "Verif.C73_integral_partial"
   ],
   "note": "Full statement is false of the code: a fractional value with unit 'step' is returned unrounded and unchecked (C73_counterexample). Proved for every other unit."
  },
  {
   "property": "C74",
   "status": "partial",
   "theorems": [
    "Verif.C74_current_task_counterexample",
    "Verif.C74_current_task_partial"
   ],
   "note": "False when the immediate cancellation used by the test manager runs inside another coroutine: afterwards there is no current task (C74_current_task_counterexample). Proved for all other histories."
  },
  {
   "property": "C75",
   "status": "proved",
   "theorems": [
    "Verif.C75_logic_array_str",
    "Verif.C75_logic_array_array",
    "Verif.C75_logic",
    "Verif.C75_write_back"
   ],
   "note": ""
  },
  {
   "property": "C76",
   "status": "partial",
   "theorems": [
    "Verif.C76_block_index",
    "Verif.C76_all_blocks_counterexample",
    "Verif.C76_all_blocks_partial"
   ],
   "note": "'Every block is visited' is false for negative indexes (C76_all_blocks_counterexample): the index pattern does not accept a sign. Order, uniqueness, identity and completeness for non-negative indexes are proved."
  },
  {
   "property": "C77",
   "status": "proved",
   "theorems": [
    "Verif.C77_decorators",
    "Verif.C77_order"
   ],
   "note": ""
  },
  {
   "property": "C78",
   "status": "proved",
   "theorems": [
    "Verif.C78_seed"
   ],
   "note": ""
  },
  {
   "property": "C79",
   "status": "partial",
   "theorems": [
    "Verif.C79_top",
    "Verif.C79_tops",
    "Verif.C79_exact_counterexample",
    "Verif.C79_exact_partial"
   ],
   "note": "Selection up to case, the fallback, the error and cocotb.tops are proved. False of the code: with two top-level objects whose names differ only in case, the later replaces the earlier, so an exact name can select the wrong object (C79_exact_counterexample); proved when no two names differ only in case."
  },
  {
   "property": "C80",
   "status": "partial",
   "theorems": [
    "Verif.C80_flag_counterexample",
    "Verif.C80_flag_partial",
    "Verif.C80_list"
   ],
   "note": "Lists and flags are proved. False of the code: blanks around a flag make it an unknown feature, because this variable is read without stripping (C80_flag_counterexample)."
  },
  {
   "property": "C81",
   "status": "proved",
   "theorems": [
    "Verif.C81_entries",
    "Verif.C81_default"
   ],
   "note": ""
  },
  {
   "property": "C82",
   "status": "proved",
   "theorems": [
    "Verif.C82_ready_before_waiting",
    "Verif.C82_ready_before_started",
    "Verif.C82_woken_in_order"
   ],
   "note": ""
  },
  {
   "property": "C83",
   "status": "partial",
   "theorems": [
    "Verif.C83_not_after_removal",
    "Verif.C83_run_only_when_fired",
    "Verif.C83_fired_is_run",
    "Verif.C83_once_counterexample_twice",
    "Verif.C83_once_counterexample_removed",
    "Verif.C83_once_counterexample_nested",
    "Verif.C83_once_partial",
    "Verif.C83_one_shot_once"
   ],
   "note": "Proved for every history: not called if removed, called only if the simulator called back, a fired one-shot callback is run or removed before control goes back, and one-shot callbacks of VPI simulators other than Verilator are called at most once and not used after being freed. False of the code for value-change callbacks, three proved counterexamples: a signal that changes twice while callbacks are queued puts its callback in the queue twice, the second time it has been freed; a queued value-change callback that is removed is freed although the simulator still has it; without the queue a nested change calls the function again. C83_once_partial covers every callback that is spared these."
  },
  {
   "property": "C84",
   "status": "partial",
   "theorems": [
    "Verif.C84_edge_seen_counterexample",
    "Verif.C84_edge_seen_partial",
    "Verif.C84_edge_seen_direct_partial",
    "Verif.C84_no_false_edge"
   ],
   "note": "False of the code in builds with the queue: the value of the signal is only read when the queue is drained, so a signal that rises and falls within one reaction does not wake a RisingEdge (C84_edge_seen_counterexample). Proved for edges reported outside a reaction, and for all edges in builds without the queue."
  },
  {
   "property": "C85",
   "status": "partial",
   "theorems": [
    "Verif.C85_pytest_pass_iff",
    "Verif.C85_fresh_results",
    "Verif.C85_script_returns_iff",
    "Verif.C85_failure_code_counterexample",
    "Verif.C85_failure_code_partial",
    "Verif.C85_simulator_code_counterexample"
   ],
   "note": "What a pass under pytest means, and that old results do not matter, is proved. False of the code: a simulator that ends with code 0 and leaves no results makes the process exit with code 0 (C85_failure_code_counterexample; proved otherwise), and the exit code of a failing simulator is never used, because the exception that would carry it is not the one raised (C85_simulator_code_counterexample). Outside pytest results are not looked at (C85_script_returns_iff)."
  },
  {
   "property": "C86",
   "status": "partial",
   "theorems": [
    "Verif.C86_settings_arrive",
    "Verif.C86_explicit_counterexample",
    "Verif.C86_explicit_partial",
    "Verif.C86_no_leak"
   ],
   "note": "Modules, top level, language and results file always arrive, and nothing leaks from earlier calls. False of the code: a variable of the runner's own environment overrides seed, filter and extra_env (C86_explicit_counterexample); proved for variables that are not set there."
  },
  {
   "property": "C87",
   "status": "partial",
   "theorems": [
    "Verif.C87_selected_iff",
    "Verif.C87_testcase_counterexample",
    "Verif.C87_testcase_partial"
   ],
   "note": "Exactly which full names match is proved for all names and texts (C87_selected_iff). False of the code: a name also selects every test whose full name ends in it after a dot earlier in the name, such as my_test_a for test_a (C87_testcase_counterexample). Proved: named tests are run, and only those if no name is the end of another full name."
  },
  {
   "property": "C88",
   "status": "partial",
   "theorems": [
    "Verif.C88_sv_string",
    "Verif.C88_sv_literal_counterexample",
    "Verif.C88_sv_literal_partial",
    "Verif.C88_sv_refused",
    "Verif.C88_vhdl_literal_counterexample",
    "Verif.C88_vhdl_literal_partial",
    "Verif.C88_tcl_counterexample",
    "Verif.C88_tcl_counterexample_var",
    "Verif.C88_tcl_partial"
   ],
   "note": "Proved: SystemVerilog strings, integers, Booleans and non-empty logic arrays; VHDL Booleans, integers and strings of graphic characters; Tcl words without [ $ ;. False of the code: the empty LogicArray becomes 0'b, VHDL logic arrays are written without quotes and so coincide with integers, and [, $, ; and the empty value are not quoted for Tcl (counterexamples proved). Floats are not modelled."
  },
  {
   "property": "C89",
   "status": "partial",
   "theorems": [
    "Verif.C89_sources_in_order",
    "Verif.C89_tags_kept",
    "Verif.C89_extension",
    "Verif.C89_extension_hidden",
    "Verif.C89_build_args_kept",
    "Verif.C89_unsupported_refused_counterexample",
    "Verif.C89_unsupported_refused_partial",
    "Verif.C89_args_counterexample",
    "Verif.C89_args_partial",
    "Verif.C89_toplevel_language"
   ],
   "note": "Order and completeness of sources, tags and the inferred language are proved for all ten runners. False of the code: the QuestaQIS runner does not look at tags, so unsupported sources are passed on (C89_unsupported_refused_counterexample); Xcelium, VCS and QuestaQIS pass arguments tagged with one language to the compilation of all files (C89_args_counterexample). Proved for the other runners."
  },
  {
   "property": "C90",
   "status": "partial",
   "theorems": [
    "Verif.C90_outdated_iff",
    "Verif.C90_up_to_date_counterexample",
    "Verif.C90_up_to_date_counterexample_time",
    "Verif.C90_up_to_date_partial",
    "Verif.C90_always"
   ],
   "note": "False of the code: a build with other arguments is skipped if no source is newer (C90_up_to_date_counterexample), so is one after an edit within the resolution of file times (C90_up_to_date_counterexample_time). Proved for repeated builds with the same arguments and edits at later times, and with always=True for every history. Included files are not among the dependencies and not modelled."
  },
  {
   "property": "C91",
   "status": "partial",
   "theorems": [
    "Verif.C91_identity_counterexample",
    "Verif.C91_identity_partial",
    "Verif.C91_stays",
    "Verif.C91_valid",
    "Verif.C91_finalize"
   ],
   "note": "False of the code for lookups with discovery_method=NATIVE, which give a new handle every time (C91_identity_counterexample). Proved for all other calls, all interfaces and histories. That objects with equal full names are the same object is C92."
  },
  {
   "property": "C92",
   "status": "partial",
   "theorems": [
    "Verif.C92_history_counterexample",
    "Verif.C92_unknown_counterexample",
    "Verif.C92_history_partial",
    "Verif.C92_regular",
    "Verif.C92_two_histories"
   ],
   "note": "False of the code: a dotted name (dut['u1.u2']) leaves an object of the wrong type under the full name, which later lookups get (C92_history_counterexample), and objects whose bounds the simulator does not give all share one handle (C92_unknown_counterexample). Proved for simple names in a simulator that lists what it finds by name (Consistent; implied by the naming rules Regular), with the VPI as the only interface."
  },
  {
   "property": "C93",
   "status": "partial",
   "theorems": [
    "Verif.C93_absent_counterexample",
    "Verif.C93_absent_partial",
    "Verif.C93_index",
    "Verif.C93_overflow"
   ],
   "note": "False of the code: the label of the requested name is compared without its index, so dut['g[7]'] is found if g[0] exists (C93_absent_counterexample). Proved for names without brackets and for all indices."
  },
  {
   "property": "C94",
   "status": "partial",
   "theorems": [
    "Verif.C94_listing_counterexample",
    "Verif.C94_listing_partial",
    "Verif.C94_block_elements"
   ],
   "note": "False of the code: a generate block named like the instance it is in is listed as the instance (C94_listing_counterexample). Proved for regular simulators, where this does not happen; Xcelium's own lookup rule is left out."
  },
  {
   "property": "C95",
   "status": "proved",
   "theorems": [
    "Verif.C95_search",
    "Verif.C95_next"
   ],
   "note": ""
  },
  {
   "property": "C96",
   "status": "partial",
   "theorems": [
    "Verif.C96_logic",
    "Verif.C96_array",
    "Verif.C96_vector_counterexample",
    "Verif.C96_vector_partial"
   ],
   "note": "False of the code: a packed array with several dimensions reports the bounds of the first and the number of all bits (C96_vector_counterexample). Proved for arrays and for vectors of one dimension."
  },
  {
   "property": "C97",
   "status": "partial",
   "theorems": [
    "Verif.C97_interface_counterexample",
    "Verif.C97_package_counterexample",
    "Verif.C97_exhausted",
    "Verif.C97_defined_partial"
   ],
   "note": "False of the code: iterating over a generate block of an interface reads an uninitialised variable (C97_interface_counterexample), a package with a one-letter full name raises an uncaught C++ exception (C97_package_counterexample), and next on an ended iterator uses freed memory (C97_exhausted). Proved without those."
  },
  {
   "property": "C98",
   "status": "proved",
   "theorems": [
    "Verif.C98_complete",
    "Verif.C98_prefix",
    "Verif.C98_collect_only"
   ],
   "note": ""
  },
  {
   "property": "C99",
   "status": "partial",
   "theorems": [
    "Verif.C99_failures_counterexample",
    "Verif.C99_failures_counterexample_plain",
    "Verif.C99_failures_partial",
    "Verif.C99_no_false_alarm"
   ],
   "note": "False of the code: when several asynchronous fixtures are torn down after a test, only the report of the last is logged, so a failure of another is lost (C99_failures_counterexample), as is that of a plain fixture's teardown when an asynchronous one follows (C99_failures_counterexample_plain). Proved for setups, calls, last teardowns, and sessions with plain fixtures only."
  },
  {
   "property": "C100",
   "status": "partial",
   "theorems": [
    "Verif.C100_teardown_counterexample",
    "Verif.C100_teardown_partial"
   ],
   "note": "False of the code: if a task started by the setup of a generator fixture has ended by the time of teardown, entering it into the teardown's manager raises KeyError and the teardown code never runs (C100_teardown_counterexample). Proved for all other sessions."
  },
  {
   "property": "C101",
   "status": "partial",
   "theorems": [
    "Verif.C101_setup_counterexample",
    "Verif.C101_setup_partial",
    "Verif.C101_teardown_counterexample",
    "Verif.C101_teardown_partial"
   ],
   "note": "False of the code: a plain fixture is set up before an asynchronous one it comes after (C101_setup_counterexample) and torn down before an asynchronous one that comes after it (C101_teardown_counterexample). Proved: setups if plain fixtures come first; teardowns of tests with fixtures of one kind."
  },
  {
   "property": "C102",
   "status": "partial",
   "theorems": [
    "Verif.C102_once",
    "Verif.C102_status",
    "Verif.C102_stop_counterexample",
    "Verif.C102_stop_partial",
    "Verif.C102_premature_counterexample"
   ],
   "note": "Once and status are proved for all sessions. False of the code: the simulator is not stopped if a hook raises while the session is finished (C102_stop_counterexample); if the simulation ends early nothing is finished, as the callback for it is never registered (C102_premature_counterexample). Proved: the simulator is stopped if those two hooks do not raise."
  },
  {
   "property": "C103",
   "status": "partial",
   "theorems": [
    "Verif.C103_random_counterexample",
    "Verif.C103_random_partial"
   ],
   "note": "False of the code for teardown, which runs with the state from before the test, and so depends on the teardowns of earlier tests (C103_random_counterexample). Proved for setup and call."
  },
  {
   "property": "C104",
   "status": "partial",
   "theorems": [
    "Verif.C104_distinct_counterexample",
    "Verif.C104_class_counterexample",
    "Verif.C104_distinct_partial"
   ],
   "note": "False of the code: a directory that merely begins with the name of the runner's directory is taken for a part of it (C104_distinct_counterexample), and a class in the runner's module can be called like a module (C104_class_counterexample). Proved outside of these cases and for files other than py.py, with both runners nested equally deep in classes."
  },
  {
   "property": "C105",
   "status": "partial",
   "theorems": [
    "Verif.C105_name_counterexample",
    "Verif.C105_name_partial",
    "Verif.C105_distinct_counterexample"
   ],
   "note": "False of the code: parameters with dots, slashes or colons cut the name (C105_name_counterexample), and class name and name do not identify the test (C105_distinct_counterexample). Proved: the name is that of the function if it has none of these."
  },
  {
   "property": "C106",
   "status": "partial",
   "theorems": [
    "Verif.C106_strip",
    "Verif.C106_no_code_counterexample",
    "Verif.C106_nested_counterexample",
    "Verif.C106_no_code_partial",
    "Verif.C106_colour_counterexample",
    "Verif.C106_colour_partial",
    "Verif.C106_default_prefix"
   ],
   "note": "False of the code: texts of exceptions are not stripped (C106_no_code_counterexample), removing a code can make another (C106_nested_counterexample), and a line feed at the end of a message adds a line with colours only (C106_colour_counterexample). Proved for messages made of characters and complete codes, exceptions without codes, and lines ended by line feeds, none at the end."
  },
  {
   "property": "C107",
   "status": "partial",
   "theorems": [
    "Verif.C107_lines_counterexample",
    "Verif.C107_stack_counterexample",
    "Verif.C107_return_counterexample",
    "Verif.C107_lines_partial",
    "Verif.C107_aligned_counterexample",
    "Verif.C107_aligned_partial"
   ],
   "note": "False of the code: an empty last line is dropped (C107_lines_counterexample), an empty line precedes a stack without an exception (C107_stack_counterexample), other line ends count in messages of several lines only (C107_return_counterexample), and from a simulation time of 1 ms on the lines are not aligned (C107_aligned_counterexample). Proved otherwise."
  },
  {
   "property": "C108",
   "status": "partial",
   "theorems": [
    "Verif.C108_width_counterexample",
    "Verif.C108_width_partial",
    "Verif.C108_text"
   ],
   "note": "False of the code for widths below 3 (C108_width_counterexample); proved for all others."
  },
  {
   "property": "C109",
   "status": "partial",
   "theorems": [
    "Verif.C109_level_counterexample",
    "Verif.C109_root_counterexample",
    "Verif.C109_quiet",
    "Verif.C109_level_partial"
   ],
   "note": "Proved for all histories: nothing is logged that is not to be logged. False of the code: messages of other loggers are dropped by the level of `gpi` (C109_level_counterexample), and changes of the root logger are not noticed if `gpi` has no level (C109_root_counterexample). Proved otherwise."
  },
  {
   "property": "C110",
   "status": "partial",
   "theorems": [
    "Verif.C110_whole",
    "Verif.C110_shown_counterexample",
    "Verif.C110_shown_partial"
   ],
   "note": "Proved for lengths and histories. False of the code: a message Python cannot take is used as a format by the fallback (C110_shown_counterexample)."
  },
  {
   "property": "C111",
   "status": "partial",
   "theorems": [
    "Verif.C111_colour_counterexample",
    "Verif.C111_colour_partial",
    "Verif.C111_override",
    "Verif.C111_default"
   ],
   "note": "False of the code: NO_COLOR set to blanks counts as not set (C111_colour_counterexample). Proved otherwise."
  },
  {
   "property": "C112",
   "status": "proved",
   "theorems": [
    "Verif.C112_stop_once",
    "Verif.C112_stop_has_cause",
    "Verif.C112_stop_follows",
    "Verif.C112_stop_at_once"
   ],
   "note": ""
  },
  {
   "property": "C113",
   "status": "partial",
   "theorems": [
    "Verif.C113_cleanup_after_stop",
    "Verif.C113_cleanup_complete",
    "Verif.C113_once_counterexample",
    "Verif.C113_cleanup_partial"
   ],
   "note": "False of the code: a callback after the request to finish cleans up again (C113_once_counterexample). Proved otherwise."
  },
  {
   "property": "C114",
   "status": "partial",
   "theorems": [
    "Verif.C114_nothing_after_counterexample",
    "Verif.C114_nothing_after_nested_counterexample",
    "Verif.C114_nothing_after_unqueued_counterexample",
    "Verif.C114_nothing_after_partial"
   ],
   "note": "False of the code: callbacks that come after the request to finish are called (C114_nothing_after_counterexample), and a callback within user code cleans up while that is running (the two other counterexamples). Proved for simulators that do not call back after they were told to finish, with a queue of callbacks or without callbacks within user code."
  },
  {
   "property": "C115",
   "status": "partial",
   "theorems": [
    "Verif.C115_starts",
    "Verif.C115_start_order",
    "Verif.C115_ends_counterexample",
    "Verif.C115_ends_twice_counterexample",
    "Verif.C115_ends_partial",
    "Verif.C115_end_order",
    "Verif.C115_ends_before_stop"
   ],
   "note": "Proved for start functions. False of the code: end functions are not called if user code asks for the end (C115_ends_counterexample), and several times after several errors (C115_ends_twice_counterexample). Proved: once for each end by the simulator or error, in order, before the request to finish."
  },
  {
   "property": "C116",
   "status": "partial",
   "theorems": [
    "Verif.C116_users_loaded",
    "Verif.C116_users_failure",
    "Verif.C116_failure_stops_counterexample",
    "Verif.C116_failure_stops_partial",
    "Verif.C116_trailing_counterexample"
   ],
   "note": "False of the code: without GPI_USERS the simulation goes on (C116_failure_stops_counterexample); an empty entry is loaded as a library (C116_trailing_counterexample). Proved otherwise."
  },
  {
   "property": "C117",
   "status": "proved",
   "theorems": [
    "Verif.C117_extra_loaded",
    "Verif.C117_extra_failure",
    "Verif.C117_no_extra",
    "Verif.C117_interfaces",
    "Verif.C117_interfaces_distinct"
   ],
   "note": ""
  },
  {
   "property": "C118",
   "status": "partial",
   "theorems": [
    "Verif.C118_in_order",
    "Verif.C118_none_lost",
    "Verif.C118_one_at_a_time",
    "Verif.C118_one_at_a_time_counterexample",
    "Verif.C118_one_at_a_time_partial"
   ],
   "note": "Order and completeness are proved. One function at a time is false of VHPI and FLI, which have no queue (C118_one_at_a_time_counterexample); proved with a queue (VPI), and if the simulator calls back only when no user code is running."
  },
  {
   "property": "C119",
   "status": "partial",
   "theorems": [
    "Verif.C119_vhpi_array",
    "Verif.C119_vhpi_scalar",
    "Verif.C119_fli_array",
    "Verif.C119_fli_scalar",
    "Verif.C119_fli_scalar_number",
    "Verif.C119_fli_bits_counterexample",
    "Verif.C119_fli_bits_partial",
    "Verif.C119_vpi_array",
    "Verif.C119_vpi_scalar"
   ],
   "note": "Proved for std_logic. False of the code for bit in the FLI: an X is accepted and stored as 0 (C119_fli_bits_counterexample); proved for 0 and 1. Bit types in the VHPI are not claimed."
  },
  {
   "property": "C120",
   "status": "partial",
   "theorems": [
    "Verif.C120_vhpi_integer",
    "Verif.C120_vhpi_enum",
    "Verif.C120_vhpi_char_counterexample",
    "Verif.C120_vhpi_char_partial",
    "Verif.C120_vhpi_long_counterexample",
    "Verif.C120_vhpi_enum_range_counterexample",
    "Verif.C120_fli_integer_counterexample",
    "Verif.C120_fli_integer_partial",
    "Verif.C120_fli_enum_counterexample",
    "Verif.C120_fli_enum_partial",
    "Verif.C120_fli_enum_range_counterexample",
    "Verif.C120_fli_enum_range_partial"
   ],
   "note": "False of the code: integers of 64 bits are accepted and dropped in the VHPI (C120_vhpi_long_counterexample); enumerations in the FLI are one bit wide for Python, so that the third literal can neither be written nor read (C120_fli_enum_counterexample), and their range check is off by one (C120_fli_enum_range_counterexample); characters from 128 on are not accepted (C120_vhpi_char_counterexample); negative positions are handed to the VHPI (C120_vhpi_enum_range_counterexample); the least integer cannot be forced in the FLI (C120_fli_integer_counterexample). Proved otherwise."
  },
  {
   "property": "C121",
   "status": "proved",
   "theorems": [
    "Verif.C121_vhpi_string",
    "Verif.C121_fli_string"
   ],
   "note": ""
  },
  {
   "property": "C122",
   "status": "partial",
   "theorems": [
    "Verif.C122_vhpi",
    "Verif.C122_fli",
    "Verif.C122_vpi"
   ],
   "note": "The exceptions are characterised exactly: integers of 64 bits in the VHPI; forced or released variables, forced reals and -1 for enumerations in the FLI are accepted by Python and dropped."
  },
  {
   "property": "C123",
   "status": "partial",
   "theorems": [
    "Verif.C123_vhpi_element",
    "Verif.C123_tuples",
    "Verif.C123_tuples_once",
    "Verif.C123_vhpi_range_partial",
    "Verif.C123_vhpi_range_two_partial",
    "Verif.C123_vhpi_range_counterexample",
    "Verif.C123_vhpi_beyond_partial",
    "Verif.C123_vhpi_beyond_counterexample",
    "Verif.C123_vhpi_named_counterexample",
    "Verif.C123_fli"
   ],
   "note": "Proved for every element. False of the code: an index outside an inner dimension gives another element (C123_vhpi_beyond_counterexample); below a record the second dimension is counted as the first (C123_vhpi_named_counterexample); null ranges are seen reversed with Questa (C123_vhpi_range_counterexample). Proved for one dimension, objects that are not below records, and ranges that are not null."
  },
  {
   "property": "C124",
   "status": "partial",
   "theorems": [
    "Verif.C124_vhpi_partial",
    "Verif.C124_vhpi_counterexample",
    "Verif.C124_vhpi_other",
    "Verif.C124_fli_partial",
    "Verif.C124_fli_counterexample",
    "Verif.C124_fli_other"
   ],
   "note": "False of the code: VHPI looks at a few literals only, so that other types with those literals are taken for logic (C124_vhpi_counterexample); FLI takes every type of 256 literals for character (C124_fli_counterexample). Proved for the other types."
  },
  {
   "property": "C125",
   "status": "partial",
   "theorems": [
    "Verif.C125_vhpi_defined_partial",
    "Verif.C125_vhpi_defined_counterexample",
    "Verif.C125_vhpi_name",
    "Verif.C125_vhpi_exists_partial",
    "Verif.C125_vhpi_exists_counterexample",
    "Verif.C125_vhpi_case_partial",
    "Verif.C125_vhpi_case_counterexample",
    "Verif.C125_vhpi_loop_partial",
    "Verif.C125_vhpi_loop_counterexample",
    "Verif.C125_vhpi_iter_partial",
    "Verif.C125_vhpi_iter_counterexample",
    "Verif.C125_vhpi_loop_iter",
    "Verif.C125_fli_exists_partial",
    "Verif.C125_fli_exists_counterexample",
    "Verif.C125_fli_loop_partial",
    "Verif.C125_fli_loop_counterexample",
    "Verif.C125_vhpi_record",
    "Verif.C125_fli_record",
    "Verif.C125_vhpi_loop_listed",
    "Verif.C125_vhpi_root",
    "Verif.C125_fli_root"
   ],
   "note": "False of the code: a missing element of a record is asked for with a NULL handle (C125_vhpi_defined_counterexample); blocks of a loop that do not exist are found by name (C125_vhpi_exists_counterexample, C125_fli_exists_counterexample); an instance looked up in other case is taken for a loop (C125_vhpi_case_counterexample); a loop with the name of the region around it is taken for that region (C125_vhpi_loop_counterexample, C125_fli_loop_counterexample); NVC gives other full names in iteration (C125_vhpi_iter_counterexample). Proved otherwise. The FLI iterator is not modelled."
  },
  {
   "property": "C126",
   "status": "partial",
   "theorems": [
    "Verif.C126_handle_partial",
    "Verif.C126_handle_whole_partial",
    "Verif.C126_handle_counterexample",
    "Verif.C126_vhpi_partial",
    "Verif.C126_vhpi_counterexample",
    "Verif.C126_fli_partial",
    "Verif.C126_fli_counterexample"
   ],
   "note": "False of the code: arrays of other things than bits and characters are never called constants (C126_vhpi_counterexample, C126_fli_counterexample), and an assignment to an array does not look whether its elements are constants, so that constant arrays are written (C126_handle_counterexample). Proved for all other objects. VPI is not claimed."
  },
  {
   "property": "C127",
   "status": "partial",
   "theorems": [
    "Verif.C127_steps",
    "Verif.C127_end",
    "Verif.C127_read_only",
    "Verif.C127_faithful",
    "Verif.C127_over",
    "Verif.C127_increasing",
    "Verif.C127_read_write_counterexample",
    "Verif.C127_read_write_partial"
   ],
   "note": "False of the code only for ReadWrite in the same time step: the loop goes round again only if an evaluation is needed, so a ReadWrite registered during the ReadWrite phase without a write is not called in this time step (C127_read_write_counterexample, with a model of Verilator's VPI where registering a callback does not ask for an evaluation); proved if a callback that registers ReadWrite also writes. Everything else is proved for every design."
  },
  {
   "property": "C128",
   "status": "partial",
   "theorems": [
    "Verif.C128_components",
    "Verif.C128_order",
    "Verif.C128_trichotomy",
    "Verif.C128_trans",
    "Verif.C128_numbers",
    "Verif.C128_comparable_counterexample",
    "Verif.C128_comparable_partial",
    "Verif.C128_string_counterexample",
    "Verif.C128_string_partial",
    "Verif.C128_questa",
    "Verif.C128_icarus",
    "Verif.C128_icarus_error",
    "Verif.C128_named",
    "Verif.C128_nvc"
   ],
   "note": "False of the code: versions whose first difference is between a number and a text raise TypeError (C128_comparable_counterexample, e.g. Active-HDL 10.5a.12 and 10.5.216), and a string compared with a QuestaVersion is parsed without dropping its second part (C128_string_counterexample). Everything else is proved for all strings."
  },
  {
   "property": "C129",
   "status": "partial",
   "theorems": [
    "Verif.C129_raises",
    "Verif.C129_waveform",
    "Verif.C129_drives",
    "Verif.C129_stop_counterexample",
    "Verif.C129_stop_partial",
    "Verif.C129_value_counterexample",
    "Verif.C129_value_partial"
   ],
   "note": "False of the code: a GPI clock whose task is cancelled (stop() or cancel()) before it has been run for the first time goes on toggling, since the coroutine that stops it in its finally block is never entered (C129_stop_counterexample), and it disturbs the next run (C129_value_counterexample). Proved for all histories with the Python implementation, and with the GPI for all histories without such a cancellation."
  },
  {
   "property": "C130",
   "status": "partial",
   "theorems": [
    "Verif.C130_split",
    "Verif.C130_split_error",
    "Verif.C130_round_trip",
    "Verif.C130_args",
    "Verif.C130_received_counterexample",
    "Verif.C130_received_partial"
   ],
   "note": "False of the code for keywords with a comma, such as the name of a test with parameters 1,2: they are joined with commas and split again (C130_received_counterexample). Proved: the splitting for all texts, the arguments for all arguments, node id and keywords without commas and without blanks around them; empty keywords are dropped."
  },
  {
   "property": "C131",
   "status": "partial",
   "theorems": [
    "Verif.C131_build_partial",
    "Verif.C131_xcelium",
    "Verif.C131_parameters",
    "Verif.C131_build_counterexample",
    "Verif.C131_accepted_counterexample"
   ],
   "note": "False of the code for Xcelium, which is given every define as a string literal although defines are documented not to be converted (C131_build_counterexample, C131_xcelium), and for GHDL and NVC, which silently drop defines (C131_accepted_counterexample). Proved for all other runners, for arguments that do not themselves look like defines or paths that look like options; parameters for all runners that take them at build time."
  },
  {
   "property": "C132",
   "status": "partial",
   "theorems": [
    "Verif.C132_plusargs",
    "Verif.C132_parameters_partial",
    "Verif.C132_parameters_counterexample",
    "Verif.C132_elab_partial",
    "Verif.C132_elab_counterexample",
    "Verif.C132_prefix_partial",
    "Verif.C132_prefix_counterexample",
    "Verif.C132_pre_partial",
    "Verif.C132_pre_counterexample"
   ],
   "note": "Plus-arguments are proved for all runners. False of the code: parameters of test are ignored by Icarus Verilog, Verilator, Xcelium, VCS, DSim and Questa's two-step flow (C132_parameters_counterexample), elaboration arguments by all but NVC (C132_elab_counterexample), SIM_CMD_PREFIX and SIM_CMD_SUFFIX by DSim (C132_prefix_counterexample), and Questa runs only the first of several commands before the simulation (C132_pre_counterexample). Proved for the other cases."
  },
  {
   "property": "C133",
   "status": "partial",
   "theorems": [
    "Verif.C133_options",
    "Verif.C133_options_total",
    "Verif.C133_opened",
    "Verif.C133_attached",
    "Verif.C133_attached_counterexample",
    "Verif.C133_fst_counterexample",
    "Verif.C133_ghdl_nvc_partial",
    "Verif.C133_verilator_partial",
    "Verif.C133_icarus_partial"
   ],
   "note": "The command line of the Verilator program is proved completely. The attached file is not the one written if Icarus Verilog's test directory is not the build directory (C133_attached_counterexample) or a Verilator design was built for FST files (C133_fst_counterexample); proved for GHDL, NVC, and the other cases of Icarus Verilog and Verilator."
  },
  {
   "property": "C134",
   "status": "partial",
   "theorems": [
    "Verif.C134_precedence_partial",
    "Verif.C134_flags",
    "Verif.C134_starts_partial",
    "Verif.C134_precedence_counterexample",
    "Verif.C134_precedence_environment_counterexample",
    "Verif.C134_starts_counterexample",
    "Verif.C134_choices_counterexample",
    "Verif.C134_choices_partial",
    "Verif.C134_exported_counterexample",
    "Verif.C134_exported_partial",
    "Verif.C134_defaults",
    "Verif.C134_users"
   ],
   "note": "False of the code: options without a value ignore the configuration file and the environment (C134_precedence_counterexample, described by C134_flags), a malformed environment variable is refused even if the command line gives a value (C134_precedence_environment_counterexample, C134_starts_counterexample), values of the configuration file are not checked against the choices (C134_choices_counterexample), and values like 0 are not exported, so that --cocotb-attach 0 does not replace COCOTB_ATTACH (C134_exported_counterexample). Proved for options with a value, and for values that are exported."
  },
  {
   "property": "C135",
   "status": "partial",
   "theorems": [
    "Verif.C135_dict",
    "Verif.C135_timescale",
    "Verif.C135_build_partial",
    "Verif.C135_test_partial",
    "Verif.C135_build_counterexample",
    "Verif.C135_build_tuple_counterexample",
    "Verif.C135_test_counterexample"
   ],
   "note": "False of the code for arguments that are empty, or 0 as a seed, which do not replace the markers (C135_build_counterexample, C135_test_counterexample), and for tuples, which fail (C135_build_tuple_counterexample). Proved for all other arguments; the reading of NAME=VALUE and of time scales is proved completely."
  },
  {
   "property": "C136",
   "status": "partial",
   "theorems": [
    "Verif.C136_module",
    "Verif.C136_toplevel",
    "Verif.C136_passed",
    "Verif.C136_language",
    "Verif.C136_characters",
    "Verif.C136_dirs_partial",
    "Verif.C136_params_partial",
    "Verif.C136_dirs_counterexample",
    "Verif.C136_dirs_folder_counterexample"
   ],
   "note": "Defaults and characters are proved completely. Two tests can share a directory: test[1] and test_1_, or a.py::b::c and a/b.py::c (C136_dirs_counterexample, C136_dirs_folder_counterexample). Proved for tests without parameters in files none of which has the name of a directory above the other, and for parameters of one test whose ids have only portable characters."
  },
  {
   "property": "C137",
   "status": "partial",
   "theorems": [
    "Verif.C137_args",
    "Verif.C137_timescale_partial",
    "Verif.C137_timescale_counterexample",
    "Verif.C137_ghdl"
   ],
   "note": "Build arguments are proved for all runners. The time scale of a build is ignored by DSim (C137_timescale_counterexample) and GHDL, whose documentation does not say so; proved for Icarus Verilog, Verilator, Xcelium and Questa's one-step flow, and the resolution of a test for GHDL."
  },
  {
   "property": "C138",
   "status": "partial",
   "theorems": [
    "Verif.C138_fraction",
    "Verif.C138_int_counterexample",
    "Verif.C138_int_partial",
    "Verif.C138_decimal_counterexample",
    "Verif.C138_decimal_partial",
    "Verif.C138_float_whole",
    "Verif.C138_float",
    "Verif.C138_float_counterexample",
    "Verif.C138_float_partial",
    "Verif.C138_timer"
   ],
   "note": "Proved in full for Fraction. False of the code otherwise: an int of 2^53 or more in a unit not coarser than the precision is rounded silently (C138_int_counterexample), and so is a Decimal of more than 28 digits (C138_decimal_counterexample); the float closest to a whole number of steps can be refused by the default mode, for instance 1.001 ns with a precision of 1 ps (C138_float_counterexample). Proved: ints below 2^53 and Decimals up to 28 digits in all modes; floats exactly for 'round' below 2^51 steps, never a wrong number for 'error', at most one off for 'floor' and 'ceil', exact when the float itself is a whole number of steps."
  },
  {
   "property": "C139",
   "status": "partial",
   "theorems": [
    "Verif.C139_nearest",
    "Verif.C139_monotone",
    "Verif.C139_convert",
    "Verif.C139_back",
    "Verif.C139_distinct",
    "Verif.C139_exact_counterexample",
    "Verif.C139_back_counterexample",
    "Verif.C139_exact_partial"
   ],
   "note": "Closest float, monotone, distinct and convertible back with 'round' below 2^51 steps are proved. False of the code: beyond 2^53 steps the value is not the simulation time even in the unit of the precision (C139_exact_counterexample), and converting a value back in the default mode 'error' can raise ValueError (C139_back_counterexample)."
  },
  {
   "property": "C140",
   "status": "partial",
   "theorems": [
    "Verif.C140_once",
    "Verif.C140_right_partial",
    "Verif.C140_right_counterexample",
    "Verif.C140_right_freed_counterexample",
    "Verif.C140_wakes",
    "Verif.C140_changes",
    "Verif.C140_over",
    "Verif.C140_processes"
   ],
   "note": "At most once, wake-ups and value changes happen, when a registration is over and the number of processes are proved in full. That each run calls the function it is made for is proved for timers and phases, and for value changes if mti_Desensitize withdraws the run a signal event has already caused; the code relies on that: without it, a value change registered after another was removed can be called although its signal did not change (C140_right_counterexample), or a freed PythonCallback is used (C140_right_freed_counterexample)."
  },
  {
   "property": "C141",
   "status": "partial",
   "theorems": [
    "Verif.C141_delay_counterexample",
    "Verif.C141_delay_partial",
    "Verif.C141_now",
    "Verif.C141_precision",
    "Verif.C141_elapsed"
   ],
   "note": "Times, precision and the end-to-end statement are proved in full. Delays arrive unchanged below 2^63 steps; a Timer of 2^63 steps or more can be constructed, but awaiting it raises OverflowError (C141_delay_counterexample)."
  },
  {
   "property": "C142",
   "status": "partial",
   "theorems": [
    "Verif.C142_sim_partial",
    "Verif.C142_sim_counterexample",
    "Verif.C142_verilator_counterexample",
    "Verif.C142_cvc_counterexample",
    "Verif.C142_parallel_counterexample",
    "Verif.C142_skip",
    "Verif.C142_passes"
   ],
   "note": "Proved for all simulators but CVC: the simulator was run in this invocation and the number of failed tests is a multiple of 256. The full statement is false in four ways, each proved: 256 failed tests give status 0, because check_results exits with the number of failures (C142_sim_counterexample); the exit code of a Verilator simulation is ignored (C142_verilator_counterexample); with CVC the results are never checked (C142_cvc_counterexample); with make -j the old results can be taken for new ones (C142_parallel_counterexample)."
  },
  {
   "property": "C143",
   "status": "partial",
   "theorems": [
    "Verif.C143_counterexample",
    "Verif.C143_partial",
    "Verif.C143_runs"
   ],
   "note": "The full statement is false: a second make regression after one in which tests failed ends with status 0, because the results file is there and up to date (C143_counterexample). Proved: the simulator was run with the verdict of C142, or the results were left as they were, not older than their prerequisites; with GHDL and NVC, and without a results file, it is always run."
  },
  {
   "property": "C144",
   "status": "partial",
   "theorems": [
    "Verif.C144_sim_partial",
    "Verif.C144_sim_counterexample",
    "Verif.C144_regression_counterexample",
    "Verif.C144_regression_partial"
   ],
   "note": "Sources and CUSTOM_COMPILE_DEPS are proved current in every history. Changed arguments do not cause a new compilation (C144_sim_counterexample); with Questa's newer flow make regression ignores changed sources (C144_regression_counterexample)."
  },
  {
   "property": "C145",
   "status": "proved",
   "theorems": [
    "Verif.C145_table",
    "Verif.C145_totals"
   ],
   "note": ""
  },
  {
   "property": "C146",
   "status": "partial",
   "theorems": [
    "Verif.C146_listed_counterexample",
    "Verif.C146_teardown_counterexample",
    "Verif.C146_twice_counterexample",
    "Verif.C146_xpass_counterexample",
    "Verif.C146_listed_partial",
    "Verif.C146_counts"
   ],
   "note": "The full statement is false in four ways, each proved: a test whose setup failed is not listed (C146_listed_counterexample); a test whose teardown failed is listed as passed (C146_teardown_counterexample); a test skipped in call and teardown is listed and counted twice (C146_twice_counterexample); an unexpected pass that pytest does not count as a failure is listed as failed (C146_xpass_counterexample). Proved for tests whose setup did not fail and whose teardown passed; the counts are proved without conditions."
  },
  {
   "property": "C147",
   "status": "proved",
   "theorems": [
    "Verif.C147_part",
    "Verif.C147_element",
    "Verif.C147_outside"
   ],
   "note": ""
  },
  {
   "property": "C148",
   "status": "partial",
   "theorems": [
    "Verif.C148_library",
    "Verif.C148_function",
    "Verif.C148_rejected",
    "Verif.C148_case_counterexample",
    "Verif.C148_file_counterexample"
   ],
   "note": "False of the code in two ways: lib_name_path rejects the name of a simulator that is not in lower case, which lib_entry accepts (C148_case_counterexample); it accepts pairs for which no library exists, such as fli and icarus (C148_file_counterexample). Proved: for every interface of every simulator both functions name the installed library (C148_library); which names raise (C148_rejected)."
  },
  {
   "property": "C149",
   "status": "partial",
   "theorems": [
    "Verif.C149_default_counterexample",
    "Verif.C149_default_partial",
    "Verif.C149_chosen_counterexample",
    "Verif.C149_chosen_partial",
    "Verif.C149_unknown_counterexample",
    "Verif.C149_unknown_partial",
    "Verif.C149_users",
    "Verif.C149_env",
    "Verif.C149_user_extra_counterexample"
   ],
   "note": "False of the code in four ways: a comma in the path of the installation makes loading fail (C149_default_counterexample); all runners but Questa's ignore gpi_interfaces (C149_chosen_counterexample); an unknown interface in the first place stands for the VPI (C149_unknown_counterexample); a GPI_EXTRA of the user is overwritten (C149_user_extra_counterexample). Proved otherwise."
  },
  {
   "property": "C150",
   "status": "partial",
   "theorems": [
    "Verif.C150_languages_counterexample",
    "Verif.C150_languages_partial"
   ],
   "note": "False of the code: VHDL sources given only by VHDL_SOURCES_<lib> do not get the VHDL interface loaded with a Verilog toplevel (C150_languages_counterexample). Proved otherwise, for paths without a comma (C149)."
  },
  {
   "property": "C151",
   "status": "partial",
   "theorems": [
    "Verif.C151_started",
    "Verif.C151_refused",
    "Verif.C151_trim_counterexample"
   ],
   "note": "False of the code in one way: blanks around the path become part of it (C151_trim_counterexample). Proved otherwise, for texts without a NUL character (a variable cannot hold one)."
  },
  {
   "property": "C152",
   "status": "partial",
   "theorems": [
    "Verif.C152_report",
    "Verif.C152_clean",
    "Verif.C152_once",
    "Verif.C152_alive",
    "Verif.C152_survives_counterexample",
    "Verif.C152_survives_partial",
    "Verif.C152_event",
    "Verif.C152_event_only"
   ],
   "note": "False of the code in one way: if the import of pygpi.entry raises SystemExit, PyErr_Print ends the process (C152_survives_counterexample). All else is proved."
  },
  {
   "property": "C153",
   "status": "partial",
   "theorems": [
    "Verif.C153_switch_counterexample",
    "Verif.C153_switch_partial",
    "Verif.C153_level_counterexample",
    "Verif.C153_level_partial",
    "Verif.C153_level_python",
    "Verif.C153_level_native",
    "Verif.C153_early",
    "Verif.C153_attach_counterexample",
    "Verif.C153_attach_partial",
    "Verif.C153_attach_errno",
    "Verif.C153_attach_other_counterexample"
   ],
   "note": "False of the code in several ways: PYGPI_DEBUG=false switches debugging on (C153_switch_counterexample); the native logger ignores a level in small letters that the Python logger accepts (C153_level_counterexample); COCOTB_ATTACH=1_000 waits for one second (C153_attach_counterexample); a large negative number is taken as a positive one (C153_attach_other_counterexample); an earlier ERANGE suppresses the pause (C153_attach_errno)."
  },
  {
   "property": "C154",
   "status": "partial",
   "theorems": [
    "Verif.C154_debug_counterexample",
    "Verif.C154_debug_partial"
   ],
   "note": "False of the code: with the variable set, Python code that is called while other Python code runs ends the process (C154_debug_counterexample). Proved for all histories in which this does not happen."
  },
  {
   "property": "C155",
   "status": "partial",
   "theorems": [
    "Verif.C155_verdict_counterexample",
    "Verif.C155_verdict_counterexample_error",
    "Verif.C155_verdict_counterexample_matcher",
    "Verif.C155_verdict_partial",
    "Verif.C155_skip",
    "Verif.C155_timeout"
   ],
   "note": "False of the code in three ways: cocotb.pass_test makes a test fail under pytest (C155_verdict_counterexample); a test expected to fail that raises an exception which is no failure is an expected failure under pytest (C155_verdict_counterexample_error); a matcher in expect_error crashes pytest (C155_verdict_counterexample_matcher). Proved otherwise. Stages need the external plugin pytest-order and are not modelled."
  },
  {
   "property": "C156",
   "status": "partial",
   "theorems": [
    "Verif.C156_calls_counterexample",
    "Verif.C156_calls_counterexample_row",
    "Verif.C156_calls_counterexample_empty",
    "Verif.C156_calls_partial"
   ],
   "note": "False of the code in three ways: a value in Param is passed on wrapped (C156_calls_counterexample); one name in a tuple gets the whole row (C156_calls_counterexample_row); without values there is a skipped test instead of none (C156_calls_counterexample_empty). Proved otherwise."
  },
  {
   "property": "C157",
   "status": "partial",
   "theorems": [
    "Verif.C157_sim_counterexample",
    "Verif.C157_sim_partial",
    "Verif.C157_apart",
    "Verif.C157_once_counterexample",
    "Verif.C157_once_partial"
   ],
   "note": "False of the code in two ways: below a directory called cocotb_test every asynchronous test runs in the simulator, too (C157_sim_counterexample); a plain test in a module that a runner runs is run twice (C157_once_counterexample). Proved otherwise. The marker on a module is modelled without arguments."
  },
  {
   "property": "C158",
   "status": "partial",
   "theorems": [
    "Verif.C158_args_partial",
    "Verif.C158_args_counterexample",
    "Verif.C158_once",
    "Verif.C158_runs_counterexample",
    "Verif.C158_runs_partial"
   ],
   "note": "False of the code in two ways: a function as fixture that requests a coroutine gets an internal object (C158_args_counterexample); a coroutine with a wide scope that waits while another one fails is never started, and later tests that request it fail (C158_runs_counterexample). Proved otherwise."
  },
  {
   "property": "C159",
   "status": "partial",
   "theorems": [
    "Verif.C159_sent_counterexample",
    "Verif.C159_sent_partial",
    "Verif.C159_told",
    "Verif.C159_received",
    "Verif.C159_errors"
   ],
   "note": "False of the code in one way: if closing the connection fails after the report was sent, it is sent again (C159_sent_counterexample). All else is proved."
  },
  {
   "property": "C160",
   "status": "partial",
   "theorems": [
    "Verif.C160_captured_counterexample",
    "Verif.C160_captured_partial",
    "Verif.C160_first",
    "Verif.C160_restored"
   ],
   "note": "False of the code in one way: only the first coroutine of a phase is captured, so that messages of the second and later asynchronous fixtures are lost (C160_captured_counterexample; C160_first says exactly what is there). All else is proved."
  },
  {
   "property": "C161",
   "status": "partial",
   "theorems": [
    "Verif.C161_found",
    "Verif.C161_errors",
    "Verif.C161_warned",
    "Verif.C161_order",
    "Verif.C161_once_counterexample",
    "Verif.C161_once_partial"
   ],
   "note": "False of the code in one way: a test that a module imports from another, or that has two names, is registered and run once for each name (C161_once_counterexample). All else is proved."
  },
  {
   "property": "C162",
   "status": "partial",
   "theorems": [
    "Verif.C162_list_counterexample",
    "Verif.C162_list_filter_counterexample",
    "Verif.C162_list_partial",
    "Verif.C162_list_selected",
    "Verif.C162_refused",
    "Verif.C162_mode"
   ],
   "note": "False of the code in two ways: the list is neither sorted by stage (C162_list_counterexample) nor filtered (C162_list_filter_counterexample). C162_list_selected says exactly how the list and the run are related; all else is proved."
  },
  {
   "property": "C163",
   "status": "proved",
   "theorems": [
    "Verif.C163_same",
    "Verif.C163_meant",
    "Verif.C163_offered"
   ],
   "note": ""
  },
  {
   "property": "C164",
   "status": "partial",
   "theorems": [
    "Verif.C164_found",
    "Verif.C164_once_counterexample",
    "Verif.C164_once_partial",
    "Verif.C164_kept",
    "Verif.C164_exit",
    "Verif.C164_malformed",
    "Verif.C164_again_counterexample",
    "Verif.C164_again_partial",
    "Verif.C164_default"
   ],
   "note": "False of the code in two ways: with one directory inside another, files are read twice (C164_once_counterexample); if the output has a name that is searched for and lies in the directories, a second run counts its test cases again (C164_again_counterexample). All else is proved."
  },
  {
   "property": "C165",
   "status": "proved",
   "theorems": [
    "Verif.C165_binstr",
    "Verif.C165_integer",
    "Verif.C165_signed",
    "Verif.C165_buff"
   ],
   "note": ""
  },
  {
   "property": "C166",
   "status": "proved",
   "theorems": [
    "Verif.C166_roundtrip",
    "Verif.C166_distinct"
   ],
   "note": ""
  },
  {
   "property": "C167",
   "status": "partial",
   "theorems": [
    "Verif.C167_total_counterexample",
    "Verif.C167_total_partial",
    "Verif.C167_alone",
    "Verif.C167_shown",
    "Verif.C167_closed_counterexample",
    "Verif.C167_closed_partial",
    "Verif.C167_await"
   ],
   "note": "False of the code in two ways: tasks that wait for one another with gather, select, wait, Combine or First have no text, repr() recurses without end (C167_total_counterexample; C167_total_partial says that this is the only way); the text of a cancelled task lacks the closing bracket (C167_closed_counterexample)."
  },
  {
   "property": "C168",
   "status": "partial",
   "theorems": [
    "Verif.C168_env",
    "Verif.C168_env_unset",
    "Verif.C168_all_counterexample",
    "Verif.C168_lost",
    "Verif.C168_all_partial",
    "Verif.C168_all_normal",
    "Verif.C168_off",
    "Verif.C168_profile"
   ],
   "note": "False of the code in two ways: if the simulator ends the simulation while a test runs, the coverage file is written before the test is cancelled and lacks what its clean-up runs (C168_all_counterexample); with profiling enabled and a simulation that ends before the simulator called cocotb once, writing the empty profile raises and nothing is written (C168_lost)."
  },
  {
   "property": "C169",
   "status": "partial",
   "theorems": [
    "Verif.C169_way",
    "Verif.C169_follow",
    "Verif.C169_unique_partial",
    "Verif.C169_history_partial",
    "Verif.C169_unique_counterexample",
    "Verif.C169_history_counterexample"
   ],
   "note": "That the path leads to the object is proved for all histories (C169_way, C169_follow). Unique paths and independence of history are false of the code: a signal shown with the name x[0] and element 0 of an array x share a path (C169_unique_counterexample); where case is ignored the spelling of the first lookup stays in the path (C169_history_counterexample). Both are proved where names are identifiers, or where each object has one spelling. Lookups with GPIDiscovery.NATIVE are left out, see C70."
  },
  {
   "property": "C170",
   "status": "partial",
   "theorems": [
    "Verif.C170_scope",
    "Verif.C170_complete",
    "Verif.C170_loop_partial",
    "Verif.C170_loop_counterexample",
    "Verif.C170_record_partial",
    "Verif.C170_record_counterexample",
    "Verif.C170_array_partial",
    "Verif.C170_array_counterexample",
    "Verif.C170_nameless",
    "Verif.C170_nolabel"
   ],
   "note": "Regions are proved (C170_scope, C170_complete). False of the code: a generate loop with the label of the region around it is listed as the region itself (C170_loop_counterexample), and a record field that is an extended identifier with a dot is cut at that dot (C170_record_counterexample). In addition an element of an array is listed under its index and a closing parenthesis (C170_array_counterexample; Python never lists arrays). The other loops and fields, and all of an element but its name, are proved."
  },
  {
   "property": "C171",
   "status": "partial",
   "theorems": [
    "Verif.C171_remove",
    "Verif.C171_own",
    "Verif.C171_cancelling",
    "Verif.C171_way_counterexample",
    "Verif.C171_way_partial",
    "Verif.C171_kept",
    "Verif.C171_same_counterexample",
    "Verif.C171_same_partial"
   ],
   "note": "That exactly the frame of the scheduler is removed is proved for every way a resumed task can end (C171_own), and that no frame is ever lost (C171_kept). The rest is false of the code, which raises one exception object again for everyone who takes the result: a second awaiting task shows the frames of the first (C171_way_counterexample), and each result() makes the traceback longer (C171_same_counterexample). Both are proved where no result is taken twice, or until one is taken."
  },
  {
   "property": "C172",
   "status": "partial",
   "theorems": [
    "Verif.C172_times",
    "Verif.C172_tiles",
    "Verif.C172_total",
    "Verif.C172_own_counterexample",
    "Verif.C172_own_partial",
    "Verif.C172_ratio_counterexample",
    "Verif.C172_ratio_partial"
   ],
   "note": "Start, end and duration of the phases and that the reports tile the session are proved in full (C172_times, C172_tiles, C172_total). Two parts are false of the code: the simulation time of a report includes one step the manager waits before each coroutine but the first of the session (C172_own_counterexample; proved with the steps counted), and sim_time_ratio in the report is clock time per simulation time where the summary has simulation time per clock time (C172_ratio_counterexample; proved that one is the inverse of the other)."
  },
  {
   "property": "C173",
   "status": "partial",
   "theorems": [
    "Verif.C173_vpi",
    "Verif.C173_vhpi_name",
    "Verif.C173_vhpi_args_counterexample",
    "Verif.C173_vhpi_args_partial",
    "Verif.C173_fli_name",
    "Verif.C173_fli_args_counterexample",
    "Verif.C173_fli_args_partial"
   ],
   "note": "Names and versions are proved for the three interfaces, and the arguments for VPI. Two parts are false of the code: under VHPI the strings of the arguments are not copied, so that a simulator that uses the memory again makes all arguments equal to the last (C173_vhpi_args_counterexample; the partial theorem says which argument appears where), and under FLI a failure of Tcl leaves number and array of the arguments unwritten, and they are read all the same (C173_fli_args_counterexample)."
  },
  {
   "property": "C174",
   "status": "partial",
   "theorems": [
    "Verif.C174_xunit_counterexample",
    "Verif.C174_xunit_partial",
    "Verif.C174_cache_counterexample",
    "Verif.C174_cache_partial",
    "Verif.C174_pytest_counterexample",
    "Verif.C174_pytest_partial",
    "Verif.C174_text_counterexample",
    "Verif.C174_text_partial"
   ],
   "note": "False of the code in four places, each with a counterexample and a proved restriction: a relative path of a file outside the base stays relative to the simulation's directory (C174_xunit_counterexample), paths are remembered across changes of the directory (C174_cache_counterexample), the pytest plugin leaves all relative paths as they are (C174_pytest_counterexample), and in texts the letters of the base are taken out wherever they are, so that with the base /work the path /home/work/a.py becomes /homea.py (C174_text_counterexample)."
  },
  {
   "property": "C175",
   "status": "partial",
   "theorems": [
    "Verif.C175_collect_counterexample",
    "Verif.C175_collect_partial",
    "Verif.C175_values",
    "Verif.C175_compare_counterexample",
    "Verif.C175_compare_partial"
   ],
   "note": "False of the code: arithmetic, use in range() and as a key of a dict raise and iteration over the stand-in never ends (C175_collect_counterexample; __getitem__ never raises IndexError, __eq__ without __hash__), and `!=` is true although all comparisons are meant to be false, because the method is misspelled __nq__ (C175_compare_counterexample). What does work is proved for expressions of any depth."
  },
  {
   "property": "C176",
   "status": "partial",
   "theorems": [
    "Verif.C176_auto",
    "Verif.C176_unique",
    "Verif.C176_named",
    "Verif.C176_refused",
    "Verif.C176_all_counterexample",
    "Verif.C176_all_partial"
   ],
   "note": "Choice, order and refusal are proved in full. That every simulator with a runner can be chosen is false of the code (C176_all_counterexample): dsim, questa-qisqrun and activehdl are not among the choices, auto does not find the first two and takes the third for Riviera-PRO, and hdl.simulator of questa-qisqrun is questaqis; C176_all_partial is the claim for all others."
  },
  {
   "property": "C177",
   "status": "partial",
   "theorems": [
    "Verif.C177_name",
    "Verif.C177_strict_counterexample",
    "Verif.C177_strict_partial"
   ],
   "note": "False of the code: cocotb_verbose is obeyed but not registered (C177_strict_counterexample). All others are usable (C177_strict_partial)."
  },
  {
   "property": "C178",
   "status": "partial",
   "theorems": [
    "Verif.C178_modules_counterexample",
    "Verif.C178_modules_partial",
    "Verif.C178_error",
    "Verif.C178_function_counterexample",
    "Verif.C178_file_counterexample",
    "Verif.C178_file_partial"
   ],
   "note": "False of the code in three places. The collector and the fixture read the markers differently: test_module= by name, a nearest marker without modules, several markers on one function (C178_modules_counterexample). The marker that the documented function cocotb_runner makes is read wrongly with one module and makes the test fail with TypeError with more (C178_function_counterexample). A file next to the runner hides the module the simulation imports (C178_file_counterexample; dots become os.path.pathsep instead of os.path.sep). Proved: one marker at each node with modules by position, exactly when the TypeError occurs, and when the files agree."
  },
  {
   "property": "C179",
   "status": "partial",
   "theorems": [
    "Verif.C179_pytest",
    "Verif.C179_created_counterexample",
    "Verif.C179_created_partial",
    "Verif.C179_direct",
    "Verif.C179_once",
    "Verif.C179_extra_counterexample",
    "Verif.C179_extra_partial",
    "Verif.C179_text",
    "Verif.C179_unknown"
   ],
   "note": "Proved in full for the plugin for pytest (C179_pytest), for handlers that write at once and for the text. False of cocotb's own filter: it sets created_sim_time again in every handler, so a message that a handler kept shows the time at which it was passed on (C179_created_counterexample). With the plugin an extra attribute named sim_time, sim_time_unit or sim_time_str is a KeyError (C179_extra_counterexample). Both are proved outside of exactly these cases or, for the first, if only the first handler has the filter."
  },
  {
   "property": "C180",
   "status": "partial",
   "theorems": [
    "Verif.C180_keyword_counterexample",
    "Verif.C180_keyword_sound",
    "Verif.C180_keyword_partial",
    "Verif.C180_directory_counterexample",
    "Verif.C180_mark_counterexample",
    "Verif.C180_mark_partial",
    "Verif.C180_both"
   ],
   "note": "False of the code in three places. With not in the expression a runner is left out as a whole if one of its tests is not wanted, because it has the names of all of them (C180_keyword_counterexample). A word that is part of the name of a directory chooses all cocotb tests (C180_directory_counterexample). With -m the runner has to have the marker as well (C180_mark_counterexample). Proved: no test runs that is not wanted (C180_keyword_sound), exactly the wanted ones without not, and exactly when with -m."
  },
  {
   "property": "C181",
   "status": "partial",
   "theorems": [
    "Verif.C181_advice",
    "Verif.C181_logic_advice",
    "Verif.C181_silent",
    "Verif.C181_logic_silent_counterexample",
    "Verif.C181_logic_silent_partial",
    "Verif.C181_needed_counterexample",
    "Verif.C181_needed_partial",
    "Verif.C181_off",
    "Verif.C181_slice_advice",
    "Verif.C181_array_slice_counterexample",
    "Verif.C181_array_slice_partial",
    "Verif.C181_derived_counterexample",
    "Verif.C181_derived_partial"
   ],
   "note": "False of the code in four places. Values of signals with ranges 0 to n are not marked but are indexed n downto 0, so that their indexing changes without a warning (C181_logic_silent_counterexample). The middle of an array is warned about although nothing changes (C181_needed_counterexample). The slice named for an array has one element too many (C181_array_slice_counterexample). Slices of values are not marked (C181_derived_counterexample). Proved: the index named is right for arrays and signals (C181_advice, C181_logic_advice), so is the slice for signals (C181_slice_advice), arrays are never silent (C181_silent), and the statements outside these cases."
  },
  {
   "property": "C182",
   "status": "partial",
   "theorems": [
    "Verif.C182_name",
    "Verif.C182_logger",
    "Verif.C182_distinct_counterexample",
    "Verif.C182_distinct_partial",
    "Verif.C182_default",
    "Verif.C182_class_partial"
   ],
   "note": "False of the code for classes derived from Task: the number of a task is read from Task but counted in the derived class, so that two tasks are called Task 0 (C182_distinct_counterexample). Proved: names and loggers in all histories (C182_name, C182_logger), different names if all tasks are of the class Task (C182_distinct_partial) or two tasks are of the same class (C182_class_partial), and the exact number of each task without a name (C182_default)."
  },
  {
   "property": "C183",
   "status": "partial",
   "theorems": [
    "Verif.C183_packages_counterexample",
    "Verif.C183_packages_partial",
    "Verif.C183_none"
   ],
   "note": "False of the code for a package with a name of one character that the simulator gives without `::`: std::string::compare gets a position behind the end, and the exception ends the simulation (C183_packages_counterexample). Proved for all other packages (C183_packages_partial), and for simulations without the VPI (C183_none)."
  },
  {
   "property": "C184",
   "status": "partial",
   "theorems": [
    "Verif.C184_traceback",
    "Verif.C184_numbers",
    "Verif.C184_short_counterexample",
    "Verif.C184_short_partial",
    "Verif.C184_colour_counterexample",
    "Verif.C184_colour_counterexample_green",
    "Verif.C184_colour_partial"
   ],
   "note": "False of the code for the test functions of runners, whose categories (passed cocotb runner, failed cocotb runner) pytest does not know: a failing one is not in the short summary (C184_short_counterexample), the last line is yellow although it failed (C184_colour_counterexample), and yellow although all passed (C184_colour_counterexample_green). Proved in full: tracebacks and numbers (C184_traceback, C184_numbers); the others but for runners."
  },
  {
   "property": "C185",
   "status": "partial",
   "theorems": [
    "Verif.C185_own_counterexample",
    "Verif.C185_own_partial",
    "Verif.C185_session",
    "Verif.C185_given_counterexample",
    "Verif.C185_given_partial"
   ],
   "note": "False of the code: the fixture hdl takes over the language of the design of the session, so that a VHDL design that a test builds itself is simulated as Verilog if the session built a Verilog design (C185_own_counterexample); and if the language of the design of the session is unclear, the fixture raises ValueError even for tests that give a language (C185_given_counterexample). Proved otherwise (C185_own_partial, C185_given_partial), and for tests of the design of the session (C185_session)."
  },
  {
   "property": "C186",
   "status": "proved",
   "theorems": [
    "Verif.C186_locals",
    "Verif.C186_access"
   ],
   "note": "Variables of a task are its own in all histories (C186_locals); setting, deleting and reading (C186_access)."
  },
  {
   "property": "C187",
   "status": "partial",
   "theorems": [
    "Verif.C187_never_run",
    "Verif.C187_values",
    "Verif.C187_unaffected_counterexample",
    "Verif.C187_unaffected_partial"
   ],
   "note": "False of the code: what a skipped asynchronous autouse fixture requests is set up all the same, so that an ordinary test fails if a plain fixture that only the skipped one requests raises in the main process (C187_unaffected_counterexample). Proved if the skipped fixtures request only what the test needs anyway (C187_unaffected_partial). No code of asynchronous fixtures runs (C187_never_run); their values (C187_values)."
  }
 ]
}