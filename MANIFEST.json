{
 "claims": [
  {
   "property": "C01",
   "status": "proved",
   "theorems": [
    "QCoro.Task.C01_memory_safe",
    "QCoro.Task.C01_no_dangling_task",
    "QCoro.Task.C01_no_dangling_frame"
   ],
   "note": ""
  },
  {
   "property": "C02",
   "status": "proved",
   "theorems": [
    "QCoro.Task.C02_freed_iff",
    "QCoro.Task.C02_freed_once",
    "QCoro.Task.C02_unawaited_lazy_leaks",
    "QCoro.Task.C02_unique_owner",
    "QCoro.Task.C02_idle_alive_iff_held"
   ],
   "note": "Equivalence for every reachable state, uniqueness of the owner, destroyed at most once. The stronger claim 'never leaked' is false of the code: C02_unawaited_lazy_leaks."
  },
  {
   "property": "C03",
   "status": "proved",
   "theorems": [
    "QCoro.Task.C03_destroyed_only_when_done",
    "QCoro.Task.C03_drop_is_inert",
    "QCoro.Task.C03_continues_without_owner"
   ],
   "note": ""
  },
  {
   "property": "C04",
   "status": "proved",
   "theorems": [
    "QCoro.Task.C04_fifo_exactly_once",
    "QCoro.Task.C04_all_resumed",
    "QCoro.Task.C04_resumed_after_completion",
    "QCoro.Task.C04_stays_suspended"
   ],
   "note": ""
  },
  {
   "property": "C05",
   "status": "proved",
   "theorems": [
    "QCoro.Task.C05_delivered",
    "QCoro.Task.C05_first_awaiter",
    "QCoro.Task.C05_all_awaiters",
    "QCoro.Task.C05_later_awaiter_counterexample",
    "QCoro.Task.C05_completes_with_returned",
    "QCoro.Task.C05_delivered_to_body"
   ],
   "note": "Full characterisation of what the n-th awaiter receives. The stronger claim 'every awaiter gets the returned value' is false of the code: C05_later_awaiter_counterexample."
  },
  {
   "property": "C06",
   "status": "proved",
   "theorems": [
    "QCoro.Task.C06_exception_to_all",
    "QCoro.Task.C06_kind_preserved",
    "QCoro.Task.C06_completes_with_thrown",
    "QCoro.Task.C05_completes_with_returned",
    "QCoro.Task.C05_delivered_to_body"
   ],
   "note": ""
  },
  {
   "property": "C07",
   "status": "proved",
   "theorems": [
    "QCoro.Task.C07_starts_at_call",
    "QCoro.Task.C07_runs_synchronously",
    "QCoro.Task.C07_then_eager",
    "QCoro.Task.C08_starts_at_most_once"
   ],
   "note": ""
  },
  {
   "property": "C08",
   "status": "proved",
   "theorems": [
    "QCoro.Task.C08_starts_at_most_once",
    "QCoro.Task.C08_lazy_started_iff_awaited",
    "QCoro.Task.C08_starts_at_await",
    "QCoro.Task.C08_then_lazy"
   ],
   "note": ""
  },
  {
   "property": "C09",
   "status": "proved",
   "theorems": [
    "QCoro.Task.C09_isReady_truth",
    "QCoro.Task.C09_isReady_stays",
    "QCoro.Task.C09_isReady_reply"
   ],
   "note": ""
  },
  {
   "property": "C10",
   "status": "proved",
   "theorems": [
    "QCoro.Task.C10_await",
    "QCoro.Task.C10_trace"
   ],
   "note": ""
  },
  {
   "property": "C11",
   "status": "proved",
   "theorems": [
    "QCoro.Task.C11_null_await_hangs",
    "QCoro.Task.C10_await"
   ],
   "note": ""
  },
  {
   "property": "C12",
   "status": "proved",
   "theorems": [
    "QCoro.Task.C12_move_construct",
    "QCoro.Task.C12_self_move",
    "QCoro.Task.C12_move_assign_release",
    "QCoro.Task.C12_move_assign_transfer"
   ],
   "note": "The model lets lazy tasks be moved as well: a superset, since LazyTask's user-declared destructor suppresses its move operations (DESIGN finding 25)."
  },
  {
   "property": "C13",
   "status": "proved",
   "theorems": [
    "QCoro.Task.C13_ready_awaitable",
    "QCoro.Task.C13_returns_result",
    "QCoro.Task.C13_returns_only_after_completion",
    "QCoro.Task.C13_empty_task_never_returns",
    "QCoro.Task.C13_exact_outcome",
    "QCoro.Task.C13_exact_exception",
    "QCoro.Task.C13_exact_awaitable",
    "QCoro.Task.C13_loop_only_if_unfinished",
    "QCoro.Task.C13_finished_task_no_loop",
    "QCoro.Task.C13_returns_at_most_once",
    "QCoro.Task.C13_returned_iff_gone",
    "QCoro.Task.C13_returns_when_finished",
    "QCoro.Task.C13_delivered_to_caller",
    "QCoro.Task.C13_every_return_has_a_call"
   ],
   "note": "Every program, nesting of waitFor and schedule; Task or any other awaitable (Aim). Exactness of the value needs that nobody else took the task's result (see C05); completion-before-return needs that nobody else quits the nested loop (see C14); both conditions are in the theorems' hypotheses and C13_returns_result says what happens without them."
  },
  {
   "property": "C14",
   "status": "proved",
   "theorems": [
    "QCoro.Task.C14_value_counterexample",
    "QCoro.Task.C14_void_counterexample",
    "QCoro.Task.C14_ub_only_after_outside_quit",
    "QCoro.Task.C14_no_outside_quit",
    "QCoro.Task.C14_quit_value_ub",
    "QCoro.Task.C14_quit_void_returns",
    "QCoro.Task.C14_quit_void_later_ub"
   ],
   "note": "Exact: C14_ub_only_after_outside_quit, C14_quit_value_ub, C14_quit_void_returns, C14_quit_void_later_ub. The claim 'survives an outside quit' is false of the code: C14_value_counterexample, C14_void_counterexample."
  },
  {
   "property": "C15",
   "status": "proved",
   "theorems": [
    "QCoro.Task.C15_lazy_lvalue_dangles",
    "QCoro.Task.C15_lazy_lvalue_replaced",
    "QCoro.Task.C15_exact_value",
    "QCoro.Task.C15_result_coroutine_exact",
    "QCoro.Task.C15_story",
    "QCoro.Task.C15_callback_at_most_once",
    "QCoro.Task.C15_callback_value",
    "QCoro.Task.C15_progress",
    "QCoro.Task.C15_callback_exactly_once",
    "QCoro.Task.C15_result",
    "QCoro.Task.C15_result_coroutine"
   ],
   "note": "Every program, callback kind, way of making the continuation, and schedule. The condition of the statement for a lazy continuation of an lvalue is Same (Verif/Task/ThenMake.lean); it is needed: C15_lazy_lvalue_dangles, C15_lazy_lvalue_replaced. Which value the callback gets if others awaited the same task too is characterised as in C05; C15_exact_value is the case that nobody did."
  },
  {
   "property": "C16",
   "status": "proved",
   "theorems": [
    "QCoro.Task.C16_error_routing",
    "QCoro.Task.C16_error_routing_progress"
   ],
   "note": "Same scope as C15."
  },
  {
   "property": "C17",
   "status": "proved",
   "theorems": [
    "QCoro.Task.C17_kept",
    "QCoro.Task.C17_kept_until_done",
    "QCoro.Task.C17_not_destroyed_early",
    "QCoro.Task.C17_released",
    "QCoro.Task.C17_released_coroutine"
   ],
   "note": ""
  },
  {
   "property": "C18",
   "status": "proved",
   "theorems": [
    "QCoro.Task.C18_context",
    "QCoro.Task.C18_never_after_context_gone",
    "QCoro.Task.C18_called_iff"
   ],
   "note": ""
  },
  {
   "property": "C19",
   "status": "proved",
   "theorems": [
    "QCoro.Gen.C19_refines",
    "QCoro.Gen.C19_reported",
    "QCoro.Gen.C19_for_loop"
   ],
   "note": ""
  },
  {
   "property": "C20",
   "status": "proved",
   "theorems": [
    "QCoro.Gen.C20_one_segment_per_advance",
    "QCoro.Gen.C20_exactly_one_segment_per_advance",
    "QCoro.Gen.C20_lazy",
    "QCoro.Gen.C20_nothing_before_begin",
    "QCoro.Gen.C20_told",
    "QCoro.Gen.C20_resumes_where_it_stopped",
    "QCoro.Gen.C19_refines"
   ],
   "note": ""
  },
  {
   "property": "C21",
   "status": "proved",
   "theorems": [
    "QCoro.Gen.C21_exception_reported",
    "QCoro.Gen.C21_once",
    "QCoro.Gen.C19_for_loop",
    "QCoro.Gen.C19_refines"
   ],
   "note": ""
  },
  {
   "property": "C22",
   "status": "proved",
   "theorems": [
    "QCoro.Gen.C22_drop_destroys_owned",
    "QCoro.Gen.C22_overwritten_leaks",
    "QCoro.Gen.C22_fate",
    "QCoro.Gen.C22_ub_iff_misuse",
    "QCoro.Gen.C22_ub_iff_misuse_in_body",
    "QCoro.Gen.C22_body_leaves",
    "QCoro.Gen.C22_memory_safe",
    "QCoro.Gen.C22_destroyed_once",
    "QCoro.Gen.C22_owned",
    "QCoro.Gen.C22_move_assign_leaks",
    "QCoro.Gen.C22_self_assign_leaks",
    "QCoro.Gen.C22_begin_misuse"
   ],
   "note": "C22_fate is the trichotomy, C22_ub_iff_misuse/_in_body/C22_body_leaves the exact undefined behaviour. 'Always destroyed' is false of the code for move assignment: C22_move_assign_leaks, C22_self_assign_leaks."
  },
  {
   "property": "C23",
   "status": "proved",
   "theorems": [
    "QCoro.AGen.C23_refines",
    "QCoro.AGen.C23_reported",
    "QCoro.AGen.C23_foreach"
   ],
   "note": ""
  },
  {
   "property": "C24",
   "status": "proved",
   "theorems": [
    "QCoro.AGen.C24_consumer_suspended",
    "QCoro.AGen.C24_producer_suspended",
    "QCoro.AGen.C24_nothing_before_begin",
    "QCoro.AGen.C24_told",
    "QCoro.AGen.C24_resumes_where_it_stopped"
   ],
   "note": ""
  },
  {
   "property": "C25",
   "status": "proved",
   "theorems": [
    "QCoro.AGen.C25_exception_reported",
    "QCoro.AGen.C25_immediate",
    "QCoro.AGen.C23_foreach"
   ],
   "note": ""
  },
  {
   "property": "C26",
   "status": "proved",
   "theorems": [
    "QCoro.AGen.C26_drop_destroys_owned",
    "QCoro.AGen.C26_destroyed_once",
    "QCoro.AGen.C26_overwritten_leaks",
    "QCoro.AGen.C26_fate",
    "QCoro.AGen.C26_ub_iff_misuse",
    "QCoro.AGen.C26_completion_ub_iff",
    "QCoro.AGen.C26_destroyed_while_awaiting_ub",
    "QCoro.AGen.C26_safe_unless_busy",
    "QCoro.AGen.C26_dead_stays_dead",
    "QCoro.AGen.C26_owned",
    "QCoro.AGen.C26_abandoned_while_awaiting",
    "QCoro.AGen.C26_move_assign_leaks"
   ],
   "note": "C26_fate, C26_ub_iff_misuse, C26_completion_ub_iff. 'Abandoning is always safe' is false of the code: C26_abandoned_while_awaiting."
  },
  {
   "property": "C27",
   "status": "proved",
   "theorems": [
    "QCoro.Sig.C27_first_emission",
    "QCoro.Sig.C27_once",
    "QCoro.Sig.C27_delivered"
   ],
   "note": ""
  },
  {
   "property": "C28",
   "status": "proved",
   "theorems": [
    "QCoro.Sig.C28_nullopt_only_on_timeout",
    "QCoro.Sig.C28_exactly_one",
    "QCoro.Sig.C28_negative_never_times_out",
    "QCoro.Sig.C28_timeout_ends_wait"
   ],
   "note": ""
  },
  {
   "property": "C29",
   "status": "proved",
   "theorems": [
    "QCoro.Sig.C29_null_object",
    "QCoro.Sig.C29_plain_null_is_ub",
    "QCoro.Sig.C29_only_ub",
    "QCoro.Sig.C29_destroyed_never_ends"
   ],
   "note": "'A wait with timeout still ends by timeout when the object is destroyed' is false of the code: C29_destroyed_never_ends."
  },
  {
   "property": "C30",
   "status": "proved",
   "theorems": [
    "QCoro.Sig.C30_thread",
    "QCoro.Sig.C30_begun"
   ],
   "note": ""
  },
  {
   "property": "C31",
   "status": "proved",
   "theorems": [
    "QCoro.SigArgs.C31_public_args",
    "QCoro.SigArgs.C31_only_public"
   ],
   "note": ""
  },
  {
   "property": "C32",
   "status": "proved",
   "theorems": [
    "QCoro.SigArgs.C32_exact",
    "QCoro.SigArgs.C32_type",
    "QCoro.SigArgs.C32_lookalike"
   ],
   "note": ""
  },
  {
   "property": "C33",
   "status": "proved",
   "theorems": [
    "QCoro.Listener.C33_in_order",
    "QCoro.Listener.C33_nothing_lost",
    "QCoro.Listener.C33_backlog",
    "QCoro.Listener.C33_waiting",
    "QCoro.Listener.C33_busy_consumer_ub",
    "QCoro.Listener.C33_documented_use_ub",
    "QCoro.Listener.C33_safe_if_only_iterating",
    "QCoro.Listener.C33_ub_iff",
    "QCoro.Listener.C33_no_other_ub"
   ],
   "note": "Exact undefined behaviour: C33_ub_iff, C33_no_other_ub. The documented use (consumer suspends elsewhere in the loop body) is undefined behaviour: C33_busy_consumer_ub, C33_documented_use_ub."
  },
  {
   "property": "C34",
   "status": "proved",
   "theorems": [
    "QCoro.Listener.C34_end_cause",
    "QCoro.Listener.C34_no_timeout_never_ends",
    "QCoro.Listener.C34_times_out",
    "QCoro.Listener.C34_kept_generator_ub",
    "QCoro.Listener.C34_destroyed_hangs",
    "QCoro.Listener.C34_ub_iff"
   ],
   "note": "Exact undefined behaviour: C34_ub_iff. 'Ends exactly on timeout' is false of the code: C34_destroyed_hangs, C34_kept_generator_ub."
  },
  {
   "property": "C35",
   "status": "proved",
   "theorems": [
    "QCoro.Wait.C35_immediate",
    "QCoro.Wait.C35_waits",
    "QCoro.Wait.C35_once",
    "QCoro.Wait.C35_complete",
    "QCoro.Wait.C35_timeout",
    "QCoro.Wait.C35_pending",
    "QCoro.Wait.C35_destroyed_null_deref",
    "QCoro.Wait.C35_amounts",
    "QCoro.Wait.C35_readAll_bytes",
    "QCoro.Wait.C35_read_bytes",
    "QCoro.Wait.C35_readLine_bytes",
    "QCoro.Wait.C35_line",
    "QCoro.Wait.C35_no_loss"
   ],
   "note": "The null dereference is exactly characterised in C35_waits and reachable: C35_destroyed_null_deref."
  },
  {
   "property": "C36",
   "status": "proved",
   "theorems": [
    "QCoro.Wait.C36_once",
    "QCoro.Wait.C36_first",
    "QCoro.Wait.C36_direct",
    "QCoro.Wait.C36_reply_overtaken",
    "QCoro.Wait.C36_emits_twice",
    "QCoro.Wait.C36_emits_once",
    "QCoro.Wait.C36_socket_emits_at_most_twice",
    "QCoro.Wait.C36_first_read",
    "QCoro.Wait.C36_first_write",
    "QCoro.Wait.C36_reply_reports",
    "QCoro.Wait.C36_reply_first",
    "QCoro.Wait.C36_socket_reports"
   ],
   "note": "'Exactly one emission' is false of the code for sockets (C36_emits_twice), and 'the first signal decides' for replies (C36_reply_overtaken); exactly what they emit: C36_socket_reports, C36_reply_reports, C36_reply_first."
  },
  {
   "property": "C37",
   "status": "proved",
   "theorems": [
    "QCoro.Wait.C37_result",
    "QCoro.Wait.C37_waits_for_all",
    "QCoro.Wait.C37_wrong",
    "QCoro.Wait.C37_round",
    "QCoro.Wait.C37_nothing_accepted",
    "QCoro.Wait.C37_first_round",
    "QCoro.Wait.C37_once",
    "QCoro.Wait.C37_portions",
    "QCoro.Wait.C37_close_ends",
    "QCoro.Wait.C37_spins",
    "QCoro.Wait.C37_spin_forever",
    "QCoro.Wait.C37_overcounts",
    "QCoro.Wait.C37_wrapper_dangling",
    "QCoro.Wait.C37_destroyed_null_deref"
   ],
   "note": "C37_first_round and C37_round are the exact loop. 'Returns the number of bytes it wrote' is false of the code: C37_spins/C37_spin_forever, C37_overcounts, C37_wrapper_dangling, C37_destroyed_null_deref."
  },
  {
   "property": "C38",
   "status": "proved",
   "theorems": [
    "QCoro.Wait.C38_leaves_device",
    "QCoro.Wait.C38_immediate",
    "QCoro.Wait.C38_waits",
    "QCoro.Wait.C38_close_reports_true",
    "QCoro.Wait.C38_unconnected_reports_true",
    "QCoro.Wait.C38_exact_unless_closed"
   ],
   "note": "C38_immediate and C38_waits are the full characterisation. 'True iff readyRead' is false of the code: C38_close_reports_true, C38_unconnected_reports_true."
  },
  {
   "property": "C39",
   "status": "proved",
   "theorems": [
    "QCoro.Wait.C39_leaves_device",
    "QCoro.Wait.C39_immediate",
    "QCoro.Wait.C39_waits",
    "QCoro.Wait.C39_first",
    "QCoro.Wait.C39_complete",
    "QCoro.Wait.C39_timeout",
    "QCoro.Wait.C39_once"
   ],
   "note": ""
  },
  {
   "property": "C40",
   "status": "proved",
   "theorems": [
    "QCoro.Aw.C40_immediate",
    "QCoro.Aw.C40_null_device",
    "QCoro.Aw.C40_result",
    "QCoro.Aw.C40_once",
    "QCoro.Aw.C40_takes",
    "QCoro.Aw.C40_only_from_event_loop",
    "QCoro.Aw.C40_complete",
    "QCoro.Aw.C40_pending",
    "QCoro.Aw.C40_destroyed_null_deref"
   ],
   "note": "C40_result is an equivalence. Deviations: C40_null_device, C40_destroyed_null_deref."
  },
  {
   "property": "C41",
   "status": "proved",
   "theorems": [
    "QCoro.Wait.C41_leaves_process",
    "QCoro.Wait.C41_waitForStarted",
    "QCoro.Wait.C41_waitForFinished",
    "QCoro.Wait.C41_start",
    "QCoro.Wait.C41_failed_start_hangs",
    "QCoro.Wait.C41_null"
   ],
   "note": "Reports is the full characterisation. 'A failure to start ends the wait' is false of the code: C41_failed_start_hangs."
  },
  {
   "property": "C42",
   "status": "proved",
   "theorems": [
    "QCoro.Wait.C42_leaves_thread",
    "QCoro.Wait.C42_waitForStarted",
    "QCoro.Wait.C42_waitForFinished",
    "QCoro.Wait.C42_started_exact",
    "QCoro.Wait.C42_finished_exact",
    "QCoro.Wait.C42_nothing_missed",
    "QCoro.Wait.C42_started_lost",
    "QCoro.Wait.C42_finished_lost",
    "QCoro.Wait.C42_wrong_answer"
   ],
   "note": "C42_started_exact, C42_finished_exact are exact for every interleaving of the thread's steps with the two checks. 'Misses no state change' is false of the code: C42_started_lost, C42_finished_lost, C42_wrong_answer."
  },
  {
   "property": "C43",
   "status": "proved",
   "theorems": [
    "QCoro.Move.C43_once_on_target",
    "QCoro.Move.C43_only_target_loop",
    "QCoro.Move.C43_running",
    "QCoro.Move.C43_started_later",
    "QCoro.Move.C43_continues_iff",
    "QCoro.Move.C43_not_before_start",
    "QCoro.Move.C43_finished_hangs",
    "QCoro.Move.C43_late_start_lost",
    "QCoro.Move.C43_ended_before_event"
   ],
   "note": "C43_continues_iff is an equivalence for every schedule. Deviations: C43_finished_hangs, C43_late_start_lost, C43_ended_before_event."
  },
  {
   "property": "C44",
   "status": "proved",
   "theorems": [
    "QCoro.Wait.C44_leaves_socket",
    "QCoro.Wait.C44_waitForConnected",
    "QCoro.Wait.C44_waitForDisconnected",
    "QCoro.Wait.C44_connectToHost",
    "QCoro.Wait.C44_null",
    "QCoro.Wait.C44_refused_hangs"
   ],
   "note": "Reports is the full characterisation. 'A refused connection ends the wait' is false of the code: C44_refused_hangs."
  },
  {
   "property": "C45",
   "status": "proved",
   "theorems": [
    "QCoro.Wait.C45_leaves_socket",
    "QCoro.Wait.C45_connected",
    "QCoro.Wait.C45_waitForConnected",
    "QCoro.Wait.C45_complete",
    "QCoro.Wait.C45_once",
    "QCoro.Wait.C45_timeout",
    "QCoro.Wait.C45_pending",
    "QCoro.Wait.C45_waitForDisconnected",
    "QCoro.Wait.C45_null",
    "QCoro.Wait.C45_connectToServer"
   ],
   "note": ""
  },
  {
   "property": "C46",
   "status": "proved",
   "theorems": [
    "QCoro.Aw.C46_await_immediate",
    "QCoro.Aw.C46_await_result",
    "QCoro.Aw.C46_await_once",
    "QCoro.Aw.C46_await_only_from_event_loop",
    "QCoro.Aw.C46_await_complete",
    "QCoro.Aw.C46_await_destroyed_hangs",
    "QCoro.Aw.C46_await_other_thread_lost",
    "QCoro.Aw.C46_await_other_thread_destroyed",
    "QCoro.Wait.C46_leaves_reply",
    "QCoro.Wait.C46_waitForFinished"
   ],
   "note": "C46_await_result is an equivalence, Reports the characterisation of waitForFinished. Deviations: C46_await_destroyed_hangs, C46_await_other_thread_lost."
  },
  {
   "property": "C47",
   "status": "proved",
   "theorems": [
    "QCoro.Wait.C47_not_listening_leaves_server",
    "QCoro.Wait.C47_immediate",
    "QCoro.Wait.C47_waits",
    "QCoro.Wait.C47_complete",
    "QCoro.Wait.C47_timeout",
    "QCoro.Wait.C47_once",
    "QCoro.Wait.C47_destroyed_null_deref",
    "QCoro.Wait.C47_destroyed_hangs"
   ],
   "note": "C47_waits is the step in which the call returns. Deviations: C47_destroyed_null_deref, C47_destroyed_hangs."
  },
  {
   "property": "C48",
   "status": "proved",
   "theorems": [
    "QCoro.Aw.C48_immediate",
    "QCoro.Aw.C48_result",
    "QCoro.Aw.C48_value",
    "QCoro.Aw.C48_once",
    "QCoro.Aw.C48_complete",
    "QCoro.Aw.C48_pending",
    "QCoro.Aw.C48_canceled_blocks",
    "QCoro.Aw.C48_canceled_later",
    "QCoro.Aw.C48_void",
    "QCoro.Aw.C48_void_result",
    "QCoro.Aw.C48_take"
   ],
   "note": "C48_immediate and C48_result are the full characterisation. Deviations: C48_canceled_blocks, C48_canceled_later."
  },
  {
   "property": "C49",
   "status": "proved",
   "theorems": [
    "QCoro.Aw.C49_immediate",
    "QCoro.Aw.C49_result",
    "QCoro.Aw.C49_once",
    "QCoro.Aw.C49_stopped_hangs",
    "QCoro.Aw.C49_leaves",
    "QCoro.Wait.C49_leaves_timer",
    "QCoro.Wait.C49_waitForTimeout_immediate",
    "QCoro.Wait.C49_waitForTimeout",
    "QCoro.Wait.C49_waitForTimeout_null"
   ],
   "note": ""
  },
  {
   "property": "C50",
   "status": "proved",
   "theorems": [
    "QCoro.Sleep.C50_sleepFor",
    "QCoro.Sleep.C50_sleepFor_whole_ms",
    "QCoro.Sleep.C50_truncated",
    "QCoro.Sleep.C50_once",
    "QCoro.Sleep.C50_sleepUntil_steady",
    "QCoro.Sleep.C50_sleepUntil_past",
    "QCoro.Sleep.C50_sleepUntil_just_past",
    "QCoro.Sleep.C50_sleepUntil_epochs",
    "QCoro.Sleep.C50_sleepUntil_wrong"
   ],
   "note": "'At least the requested time' is false of the code: C50_truncated, C50_sleepUntil_wrong."
  },
  {
   "property": "C51",
   "status": "proved",
   "theorems": [
    "QCoro.Aw.C51_immediate",
    "QCoro.Aw.C51_result",
    "QCoro.Aw.C51_once",
    "QCoro.Aw.C51_complete",
    "QCoro.Aw.C51_pending",
    "QCoro.Wait.C51_leaves_call",
    "QCoro.Wait.C51_waitForFinished_reply",
    "QCoro.Wait.C51_waitForFinished_call",
    "QCoro.Wait.C51_call_always_suspends"
   ],
   "note": "QCoroDBusPendingCall::waitForFinished suspends even when the call has finished (C51_call_always_suspends); characterised."
  },
  {
   "property": "C52",
   "status": "proved",
   "theorems": [
    "QCoro.Wait.C52_leaves_socket",
    "QCoro.Wait.C52_open_watcher_emits_once",
    "QCoro.Wait.C52_open",
    "QCoro.Wait.C52_open_sync_ok",
    "QCoro.Wait.C52_open_sync_error_hangs",
    "QCoro.Wait.C52_open_sync_deaf",
    "QCoro.Wait.C52_ping",
    "QCoro.Wait.C52_ping_any_pong",
    "QCoro.Wait.C52_null"
   ],
   "note": "C52_open, C52_open_sync_ok, C52_open_sync_deaf, C52_ping cover every case. Deviations: C52_open_sync_error_hangs, C52_ping_any_pong."
  },
  {
   "property": "C53",
   "status": "proved",
   "theorems": [
    "QCoro.WebSocketGen.C53_in_order",
    "QCoro.WebSocketGen.C53_answer",
    "QCoro.WebSocketGen.C53_times_out",
    "QCoro.WebSocketGen.C53_end",
    "QCoro.WebSocketGen.C53_safe_if_only_iterating",
    "QCoro.WebSocketGen.C53_before_begin_lost",
    "QCoro.WebSocketGen.C53_busy_consumer_ub",
    "QCoro.WebSocketGen.C53_silent_hang",
    "QCoro.WebSocketGen.C53_ub_iff",
    "QCoro.WebSocketGen.C53_nothing_lost",
    "QCoro.WebSocketGen.C53_asks_waits"
   ],
   "note": "Exact undefined behaviour: C53_ub_iff. Nothing is lost or queued inside: C53_nothing_lost, C53_asks_waits. Deviations: C53_before_begin_lost, C53_busy_consumer_ub, C53_silent_hang."
  },
  {
   "property": "C54",
   "status": "proved",
   "theorems": [
    "QCoro.WsServer.C54_conservation",
    "QCoro.WsServer.C54_at_once",
    "QCoro.WsServer.C54_once",
    "QCoro.WsServer.C54_no_duplicates",
    "QCoro.WsServer.C54_null",
    "QCoro.WsServer.C54_null_sequential",
    "QCoro.WsServer.C54_order",
    "QCoro.WsServer.C54_after_wait_uaf",
    "QCoro.WsServer.C54_second_connection_lost",
    "QCoro.WsServer.C54_timeout_loses",
    "QCoro.WsServer.C54_concurrent_null",
    "QCoro.WsServer.C54_ub_iff",
    "QCoro.WsServer.C54_connection",
    "QCoro.WsServer.C54_close",
    "QCoro.WsServer.C54_timeout",
    "QCoro.WsServer.C54_wait_exact"
   ],
   "note": "C54_ub_iff and C54_wait_exact are exact. Deviations from the documented behaviour: C54_after_wait_uaf, C54_second_connection_lost, C54_timeout_loses, C54_concurrent_null."
  },
  {
   "property": "C55",
   "status": "proved",
   "theorems": [
    "QCoro.QmlTask.C55_history",
    "QCoro.QmlTask.C55_at_most_once",
    "QCoro.QmlTask.C55_answered",
    "QCoro.QmlTask.C55_ub_iff",
    "QCoro.QmlTask.C55_drop_harmless",
    "QCoro.QmlTask.C55_diagnosed",
    "QCoro.QmlTask.C55_attaches",
    "QCoro.QmlTask.C55_copy_ub",
    "QCoro.QmlTask.C55_await_null_ub",
    "QCoro.QmlTask.C55_second_gets_moved_from",
    "QCoro.QmlTask.C55_engine_ub",
    "QCoro.QmlTask.C55_example"
   ],
   "note": "C55_history (exact condition of every event), C55_answered (everybody gets a turn), C55_ub_iff (exact). Deviations: C55_copy_ub, C55_await_null_ub, C55_engine_ub, C55_second_gets_moved_from."
  },
  {
   "property": "C56",
   "status": "proved",
   "theorems": [
    "QCoro.ImageProvider.C56_finished_once",
    "QCoro.ImageProvider.C56_image",
    "QCoro.ImageProvider.C56_at_most_once",
    "QCoro.ImageProvider.C56_ub_iff",
    "QCoro.ImageProvider.C56_failure_never_finishes",
    "QCoro.ImageProvider.C56_deleted_uaf",
    "QCoro.ImageProvider.C56_example"
   ],
   "note": "C56_finished_once, C56_ub_iff. Deviations: C56_failure_never_finishes, C56_deleted_uaf."
  },
  {
   "property": "C57",
   "status": "proved",
   "theorems": [
    "QCoro.RefCount.C57_safe",
    "QCoro.RefCount.C57_not_early",
    "QCoro.RefCount.C57_destroyed",
    "QCoro.RefCount.C57_by_a_releaser"
   ],
   "note": ""
  },
  {
   "property": "C58",
   "status": "proved",
   "theorems": [
    "QCoro.CrossAwait.C58_continues_iff_not_missed",
    "QCoro.CrossAwait.C58_never_twice",
    "QCoro.CrossAwait.C58_lost_wakeup",
    "QCoro.CrossAwait.C58_lost_for_ever"
   ],
   "note": "Complete characterisation for every interleaving and any number of awaiters. 'No lost wake-up' is false of the code: C58_lost_wakeup, C58_lost_for_ever."
  },
  {
   "property": "C59",
   "status": "proved",
   "theorems": [
    "QCoro.Aw.C59_waitOperation_timer",
    "QCoro.Sig.C59_signal_timer"
   ],
   "note": ""
  },
  {
   "property": "C60",
   "status": "proved",
   "theorems": [
    "QCoro.Aw.C60_result",
    "QCoro.Aw.C60_once",
    "QCoro.Aw.C60_only_from_event_loop",
    "QCoro.Aw.C60_complete",
    "QCoro.Aw.C60_ready",
    "QCoro.Aw.C60_server_immediate",
    "QCoro.Aw.C60_server_result",
    "QCoro.Aw.C60_server_once",
    "QCoro.Aw.C60_server_null",
    "QCoro.Aw.C60_server_takes",
    "QCoro.Aw.C60_server_takes_immediate"
   ],
   "note": "C60_result is the exact characterisation. The server operation built on it dereferences a null server (C60_server_null)."
  },
  {
   "property": "C61",
   "status": "proved",
   "theorems": [
    "QCoro.Task.C61_reason",
    "QCoro.Task.C61_idle",
    "QCoro.Task.C61_blocked_from_outside",
    "QCoro.Task.C61_all_finish",
    "QCoro.Task.C61_circle_example"
   ],
   "note": "Every program and schedule. C61_circle_example: a coroutine awaiting itself does stand still for ever."
  },
  {
   "property": "C62",
   "status": "proved",
   "theorems": [
    "QCoro.Task.C62_nested_waits_return_in_reverse_order"
   ],
   "note": "Calls are identified by the step that makes them (Waits), the earlier one not having returned when the later one is made."
  },
  {
   "property": "C63",
   "status": "proved",
   "theorems": [
    "QCoro.Sig.C63_no_overtaking",
    "QCoro.Sig.C63_broadcast",
    "QCoro.Sig.C63_other_thread_overtakes",
    "QCoro.Sig.C63_timeout_overtakes"
   ],
   "note": "C63_no_overtaking (order), C63_broadcast (all reached), C63_other_thread_overtakes and C63_timeout_overtakes (the limits are real)."
  },
  {
   "property": "C64",
   "status": "proved",
   "theorems": [
    "QCoro.QmlTask.C64_value",
    "QCoro.QmlTask.C64_changes",
    "QCoro.QmlTask.C64_intermediate",
    "QCoro.QmlTask.C64_example"
   ],
   "note": "C64_intermediate (what await(x) shows), C64_changes (from then on only the result changes it), C64_value (all histories)."
  },
  {
   "property": "C65",
   "status": "proved",
   "theorems": [
    "QCoro.Task.C65_composes",
    "QCoro.Task.C65_runs_through",
    "QCoro.Task.C65_example"
   ],
   "note": "C65_composes (any chain, any stages), C65_runs_through (progress for synchronous callbacks; a LazyTask link must have been started), C65_example."
  },
  {
   "property": "C66",
   "status": "proved",
   "theorems": [
    "QCoro.Task.C66_answers",
    "QCoro.Task.C66_arguments",
    "QCoro.Task.C66_body_is_a_sequential_program",
    "QCoro.Task.C66_goes_on_where_it_stopped",
    "QCoro.Task.C66_callback_is_a_sequential_program"
   ],
   "note": "C66_body_is_a_sequential_program, C66_callback_is_a_sequential_program (against the small-step specification Plays in TalkSpec), C66_goes_on_where_it_stopped (the position of the body in each of its states); examples in ToldDemo. C66_answers and C66_arguments (Answers): the objects and flags the statements of a body are told, and what its Task parameters refer to."
  },
  {
   "property": "C67",
   "status": "proved",
   "theorems": [
    "QCoro.Task.C67_outcome",
    "QCoro.Task.C67_completes_iff",
    "QCoro.Task.C67_awaitable",
    "QCoro.Task.C67_ready_awaitable",
    "QCoro.Task.C67_connect"
   ],
   "note": "toTask's body is any body that behaves as `co_return co_await a` (Forwards); C67_outcome, C67_completes_iff (Task or other awaitable), C67_awaitable, C67_ready_awaitable (other awaitables), C67_connect (composition with C18; nobody else takes the result of the converted task). Concrete runs in ConvertDemo."
  },
  {
   "property": "C68",
   "status": "proved",
   "theorems": [
    "QCoro.Task.C68_outcome",
    "QCoro.Task.C68_completes"
   ],
   "note": "The constructor's then() call with any coroutine callback that returns a function of its argument at once (Converts). C68_outcome (safety), C68_completes (progress; nobody else takes the task's result)."
  },
  {
   "property": "C69",
   "status": "proved",
   "theorems": [
    "QCoro.Wait.Many.C69_no_loss",
    "QCoro.Wait.Many.C69_no_dup",
    "QCoro.Wait.Many.C69_why",
    "QCoro.Wait.Many.C69_once",
    "QCoro.Wait.Many.C69_completes",
    "QCoro.Wait.Many.C69_not_left_waiting",
    "QCoro.Wait.Many.C69_timeout",
    "QCoro.Wait.Many.C69_empty_handed"
   ],
   "note": "Any number of pending reading calls share the device (Wait/Readers.lean); Why lists the reasons for a return. C69_not_left_waiting assumes that every arrival is followed by readyRead."
  },
  {
   "property": "C70",
   "status": "proved",
   "theorems": [
    "QCoro.CoReturn.C70_stores",
    "QCoro.CoReturn.C70_lvalue_is_moved",
    "QCoro.CoReturn.C70_untouched_iff",
    "QCoro.CoReturn.C70_const_untouched",
    "QCoro.CoReturn.C70_move_only_rejected",
    "QCoro.CoReturn.C70_rejected",
    "QCoro.CoReturn.C70_throwing_terminates",
    "QCoro.CoReturn.C70_completes_with_exception",
    "QCoro.CoReturn.C70_member_emptied"
   ],
   "note": "Overload resolution among the four return_value functions is computed from a ranking of the C++ rules; the user's types are arbitrary relations (Types) with three facts of C++ assumed (Sane)."
  },
  {
   "property": "C71",
   "status": "proved",
   "theorems": [
    "QCoro.Callback.C71_then_accepts",
    "QCoro.Callback.C71_then_call",
    "QCoro.Callback.C71_then_compiles",
    "QCoro.Callback.C71_then_overloaded",
    "QCoro.Callback.C71_then_rvalue_only",
    "QCoro.Callback.C71_connect_function",
    "QCoro.Callback.C71_connect_member",
    "QCoro.Callback.C71_connect_errors",
    "QCoro.Callback.C71_connect_call",
    "QCoro.Callback.C71_both_ways_rejected",
    "QCoro.Callback.C71_needs_default",
    "QCoro.Callback.C71_connect_accepts",
    "QCoro.Callback.C71_context_function"
   ],
   "note": "A callable is an arbitrary map from (value category, argument types) to result types. Ordinary: its own value category does not matter."
  },
  {
   "property": "C72",
   "status": "proved",
   "theorems": [
    "QCoro.Test.C72_runs",
    "QCoro.Test.C72_total",
    "QCoro.Test.C72_no_expectations",
    "QCoro.Test.C72_expect_fail",
    "QCoro.Test.C72_throws_keeps_expectation"
   ],
   "note": "QTestResult's handling of expected failures is modelled after Qt. The QCORO_TRY_* macros use an undefined macro (QCORO_TRY_LOOP_IMPL), so they cannot be used at all; not modelled."
  },
  {
   "property": "C73",
   "status": "proved",
   "theorems": [
    "QCoro.WaitCross.C73_result",
    "QCoro.WaitCross.C73_hangs_iff",
    "QCoro.WaitCross.C73_hang_window",
    "QCoro.WaitCross.C73_ub_iff",
    "QCoro.WaitCross.C73_writes_in_time",
    "QCoro.WaitCross.C73_atomic",
    "QCoro.WaitCross.C73_lost_quit",
    "QCoro.WaitCross.C73_dead_loop"
   ],
   "note": "Complete characterisation for every interleaving (sequential consistency; the plain bool makes it a data race in C++ already). 'waitFor always returns' is false of the code: C73_lost_quit; so is memory safety: C73_dead_loop."
  },
  {
   "property": "C74",
   "status": "proved",
   "theorems": [
    "QCoro.Task.C74_drop",
    "QCoro.Task.C74_move_construct",
    "QCoro.Task.C74_move_assign",
    "QCoro.Task.C74_self_move"
   ],
   "note": "Complete operations on executed programs (C12 states single steps). The only undefined behaviour is the user's own: using a Task object that does not exist."
  },
  {
   "property": "C75",
   "status": "proved",
   "theorems": [
    "QCoro.AGen.C75_no_deadlock",
    "QCoro.AGen.C75_stage",
    "QCoro.AGen.C75_source",
    "QCoro.AGen.C75_pipeline"
   ],
   "note": "C75_stage: one loop in an arbitrary history; C75_source: sources, also infinite ones; C75_pipeline: chains of any length; C75_no_deadlock. Hypotheses: nobody else advances the generator and nobody writes through iterators; PipeDemo shows a three-member chain that meets them and runs to its end."
  },
  {
   "property": "C76",
   "status": "proved",
   "theorems": [
    "QCoro.Dispatch.C76_qt_types",
    "QCoro.Dispatch.C76_own_awaitables",
    "QCoro.Dispatch.C76_nothing_else",
    "QCoro.Dispatch.C76_accepted_iff",
    "QCoro.Dispatch.C76_both",
    "QCoro.Dispatch.C76_generators",
    "QCoro.Dispatch.C76_rvalue_operator_rejected",
    "QCoro.Dispatch.C76_int_ready_rejected",
    "QCoro.Dispatch.C76_connect_iff",
    "QCoro.Dispatch.C76_connect_qt",
    "QCoro.Dispatch.C76_connect_own",
    "QCoro.Dispatch.C76_connect_awaits"
   ],
   "note": "The C++ overload rules used are part of the model (compared with g++ 13 on stand-alone declarations)."
  },
  {
   "property": "C77",
   "status": "proved",
   "theorems": [
    "QCoro.Dispatch.C77_wrapper",
    "QCoro.Dispatch.C77_missing_header_pointer",
    "QCoro.Dispatch.C77_missing_header_silent",
    "QCoro.Dispatch.C77_no_wrapper",
    "QCoro.Dispatch.C77_awaiter",
    "QCoro.Dispatch.C77_reply_read"
   ],
   "note": "Single inheritance; the include set is the closure of the headers' own includes."
  },
  {
   "property": "C78",
   "status": "proved",
   "theorems": [
    "QCoro.Timers.C78_order",
    "QCoro.Timers.C78_by_a_later_timeout",
    "QCoro.Timers.C78_one_timeout_continues_all",
    "QCoro.Timers.C78_exactly_those",
    "QCoro.Timers.C78_destroyed_strands",
    "QCoro.Timers.C78_suspends_iff",
    "QCoro.Timers.C78_progress",
    "QCoro.Timers.C78_destroyed_strands_example"
   ],
   "note": "Qt's emission semantics (connections added during an emission are not called, removed ones are skipped, destruction ends it) is modelled from Qt."
  },
  {
   "property": "C79",
   "status": "proved",
   "theorems": [
    "QCoro.Wait.Serve.C79_no_loss",
    "QCoro.Wait.Serve.C79_no_dup",
    "QCoro.Wait.Serve.C79_why",
    "QCoro.Wait.Serve.C79_once",
    "QCoro.Wait.Serve.C79_completes",
    "QCoro.Wait.Serve.C79_not_left_waiting",
    "QCoro.Wait.Serve.C79_timeout",
    "QCoro.Wait.Serve.C79_empty_handed"
   ],
   "note": "Connections are numbers; nextPendingConnection hands out the oldest (Qt documentation)."
  },
  {
   "property": "C80",
   "status": "proved",
   "theorems": [
    "QCoro.Lifetime.C80_dangles_iff_late",
    "QCoro.Lifetime.C80_late_iff",
    "QCoro.Lifetime.C80_dangles_iff",
    "QCoro.Lifetime.C80_safe",
    "QCoro.Lifetime.C80_default_handler",
    "QCoro.Lifetime.C80_image"
   ],
   "note": "Control-flow model of every public coroutine: order of uses of caller-owned objects and suspensions. The table Unsafe is proved to be exact (C80_dangles_iff): every listed pair has a run with undefined behaviour, every other pair none. All branches are taken to be possible."
  },
  {
   "property": "C81",
   "status": "proved",
   "theorems": [
    "QCoro.Gen.C81_stage",
    "QCoro.Gen.C81_source",
    "QCoro.Gen.C81_pipeline"
   ],
   "note": "C81_stage: one loop in an arbitrary history; C81_source: sources, also infinite ones; C81_pipeline: chains of any length. Hypotheses: nobody else advances the source and nobody writes through iterators (both can be seen in the log); PipeDemo shows a chain of three that meets them, with a stage that leaves its loop early."
  },
  {
   "property": "C82",
   "status": "proved",
   "theorems": [
    "QCoro.Yield.C82_yields_object",
    "QCoro.Yield.C82_yields_temporary",
    "QCoro.Yield.C82_yields_nothing",
    "QCoro.Yield.C82_deref",
    "QCoro.Yield.C82_get_ub_iff",
    "QCoro.Yield.C82_get",
    "QCoro.Yield.C82_set_ub_iff",
    "QCoro.Yield.C82_set",
    "QCoro.Yield.C82_keep",
    "QCoro.Yield.C82_sound",
    "QCoro.Yield.C82_written_is_read",
    "QCoro.Yield.C82_co_yield",
    "QCoro.Yield.C82_co_yield_temporary",
    "QCoro.Yield.C82_at_yield",
    "QCoro.Yield.C82_temporary_dangles",
    "QCoro.Yield.C82_variable_stays",
    "QCoro.Yield.C82_outer_stays",
    "QCoro.Yield.C82_body_ub_iff",
    "QCoro.Yield.C82_found_temporary",
    "QCoro.Yield.C82_found_async"
   ],
   "note": "All interleavings; exact characterisation of validity (C82_get_ub_iff) and of the value read (C82_get, C82_sound); overload table for all type arguments and operands (C82_yields_*)."
  },
  {
   "property": "C83",
   "status": "proved",
   "theorems": [
    "QCoro.Shared.C83_order",
    "QCoro.Shared.C83_once",
    "QCoro.Shared.C83_outcome",
    "QCoro.Shared.C83_ub_iff",
    "QCoro.Shared.C83_shared",
    "QCoro.Shared.C83_taken",
    "QCoro.Shared.C83_loop",
    "QCoro.Shared.C83_check",
    "QCoro.Shared.C83_by_own_loop",
    "QCoro.Shared.C83_after_take_hangs",
    "QCoro.Shared.C83_drains",
    "QCoro.Shared.C83_found_overtakes",
    "QCoro.SharedReply.C83_reply_once",
    "QCoro.SharedReply.C83_reply_answer",
    "QCoro.SharedReply.C83_reply_order",
    "QCoro.SharedReply.C83_reply_suspends",
    "QCoro.SharedReply.C83_reply_drains",
    "QCoro.SharedReply.C83_reply_destroyed_hangs",
    "QCoro.SharedReply.C83_reply_deleteLater",
    "QCoro.SharedReply.C83_reply_delete_null"
   ],
   "note": "Model: one step for every atomic part of a co_await (await_ready, await_suspend), of the producer and of an event loop, any interleaving. `keep` is whether isFinished() stays true after takeResult(): the theorems hold for both, except C83_after_take_hangs (Qt 6: false). Found: takeResult() takes the result from coroutines that have been waiting longer (C83_taken, C83_found_overtakes). Reply: one thread (the one of the reply)."
  },
  {
   "property": "C84",
   "status": "proved",
   "theorems": [
    "QCoro.AGen.C84_async_depth",
    "QCoro.AGen.C84_async_action",
    "QCoro.AGen.C84_async_flat",
    "QCoro.AGen.C84_async_no_reentry",
    "QCoro.Gen.C84_generator_depth",
    "QCoro.Gen.C84_generator_no_reentry",
    "QCoro.Task.C84_no_reentry",
    "QCoro.Task.C84_only_existing",
    "QCoro.Task.C84_depth",
    "QCoro.Task.C84_waitFor",
    "QCoro.Task.C84_found_chain"
   ],
   "note": "Bounds are on the native stacks of the Task, Generator and AsyncGenerator models, as functions of the history. Hypothesis ub = none: re-entrant begin()/++ by a body on its own generator is undefined behaviour and characterised in C22/C26. Found: completion and destruction of a long chain of Tasks recurse to depth n + 1 (C84_found_chain)."
  },
  {
   "property": "C85",
   "status": "proved",
   "theorems": [
    "QCoro.AGen.C85_gen_same_history",
    "QCoro.AGen.C85_gen_stays",
    "QCoro.AGen.C85_gen_producer",
    "QCoro.AGen.C85_gen_consumer",
    "QCoro.AGen.C85_gen_home",
    "QCoro.AGen.C85_gen_found_moves",
    "QCoro.Task.C85_same_history",
    "QCoro.Task.C85_stays",
    "QCoro.Task.C85_starts",
    "QCoro.Task.C85_woken",
    "QCoro.Task.C85_outside",
    "QCoro.Task.C85_home",
    "QCoro.Task.C85_found_awaiter_moves"
   ],
   "note": "Threads take turns: one thread's synchronous run (from its event loop back to its event loop) is not interleaved with another's; the race in which two threads touch the same Task at the same time is outside (the library has no synchronisation there, see C57 for the reference count). Found: the awaiter of a Task continues on the thread on which the Task finished, and stays there (C85_found_awaiter_moves)."
  },
  {
   "property": "C86",
   "status": "proved",
   "theorems": [
    "QCoro.Listener.C86_listener",
    "QCoro.Listener.C86_listener_never",
    "QCoro.Listener.C86_found_listener_early",
    "QCoro.Sig.C86_short",
    "QCoro.Sig.C86_wide",
    "QCoro.Sig.C86_nullopt_only",
    "QCoro.Sig.C86_ends",
    "QCoro.Sig.C86_never",
    "QCoro.Sig.C86_found_early",
    "QCoro.Wait.C86_calls",
    "QCoro.Wait.C86_calls_short",
    "QCoro.Wait.C86_found_hangs",
    "QCoro.Sleep.C86_sleep",
    "QCoro.Sleep.C86_sleep_short",
    "QCoro.Sleep.C86_found_sleep",
    "QCoro.WebSocketGen.C86_messages",
    "QCoro.WsServer.C86_server",
    "QCoro.WsServer.C86_found_server"
   ],
   "note": "The model of a signal wait with the converted interval (execQ) is proved to simulate the model of C27-C30 with another timeout, and so are all the calls of the Wait layer built on it (runQ), iterating listeners and their co_await (C86_listener), web socket message generators (C86_messages) and nextPendingConnection of a QWebSocketServer (C86_server). Overflow of the 64-bit duration_cast itself is outside. Found: before Qt 6.8 a wait of 25 to 49 days never times out, one of 2^32 ms times out at once, sleepFor(25 days) does not suspend."
  },
  {
   "property": "C87",
   "status": "proved",
   "theorems": [
    "QCoro.World.C87_emit",
    "QCoro.World.C87_process",
    "QCoro.World.C87_timer",
    "QCoro.World.C87_suspends",
    "QCoro.World.C87_layers",
    "QCoro.World.C87_value",
    "QCoro.World.C87_begins",
    "QCoro.World.C87_delivered",
    "QCoro.World.C87_idle",
    "QCoro.World.C87_clock",
    "QCoro.World.C87_qCoro",
    "QCoro.World.C87_first_await"
   ],
   "note": "Composition of the Task model (C01-C18, C61, C66) and the signal model (C27-C30), not a third model: C87_layers shows that both components are runs of the two models and the history a merge of theirs. Posted events of different objects may be delivered in any relative order (more schedules than Qt has)."
  }
 ]
}