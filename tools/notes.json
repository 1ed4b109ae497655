{
 "C02": {
  "status": "proved",
  "note": "Equivalence for every reachable state, uniqueness of the owner, destroyed at most once. The stronger claim 'never leaked' is false of the code: C02_unawaited_lazy_leaks."
 },
 "C05": {
  "status": "proved",
  "note": "Full characterisation of what the n-th awaiter receives. The stronger claim 'every awaiter gets the returned value' is false of the code: C05_later_awaiter_counterexample."
 },
 "C07": {
  "also": [
   "QCoro.Task.C08_starts_at_most_once"
  ]
 },
 "C11": {
  "also": [
   "QCoro.Task.C10_await"
  ]
 },
 "C06": {
  "also": [
   "QCoro.Task.C05_completes_with_returned",
   "QCoro.Task.C05_delivered_to_body"
  ]
 },
 "C20": {
  "also": [
   "QCoro.Gen.C19_refines"
  ]
 },
 "C21": {
  "also": [
   "QCoro.Gen.C19_for_loop",
   "QCoro.Gen.C19_refines"
  ]
 },
 "C22": {
  "status": "proved",
  "note": "C22_fate is the trichotomy, C22_ub_iff_misuse/_in_body/C22_body_leaves the exact undefined behaviour. 'Always destroyed' is false of the code for move assignment: C22_move_assign_leaks, C22_self_assign_leaks."
 },
 "C25": {
  "also": [
   "QCoro.AGen.C23_foreach"
  ]
 },
 "C26": {
  "status": "proved",
  "note": "C26_fate, C26_ub_iff_misuse, C26_completion_ub_iff. 'Abandoning is always safe' is false of the code: C26_abandoned_while_awaiting."
 },
 "C29": {
  "status": "proved",
  "note": "'A wait with timeout still ends by timeout when the object is destroyed' is false of the code: C29_destroyed_never_ends."
 },
 "C33": {
  "status": "proved",
  "note": "Exact undefined behaviour: C33_ub_iff, C33_no_other_ub. The documented use (consumer suspends elsewhere in the loop body) is undefined behaviour: C33_busy_consumer_ub, C33_documented_use_ub."
 },
 "C34": {
  "status": "proved",
  "note": "Exact undefined behaviour: C34_ub_iff. 'Ends exactly on timeout' is false of the code: C34_destroyed_hangs, C34_kept_generator_ub."
 },
 "C35": {
  "status": "proved",
  "note": "The null dereference is exactly characterised in C35_waits and reachable: C35_destroyed_null_deref."
 },
 "C36": {
  "status": "proved",
  "note": "'Exactly one emission' is false of the code for sockets (C36_emits_twice), and 'the first signal decides' for replies (C36_reply_overtaken); exactly what they emit: C36_socket_reports, C36_reply_reports, C36_reply_first."
 },
 "C37": {
  "status": "proved",
  "note": "C37_first_round and C37_round are the exact loop. 'Returns the number of bytes it wrote' is false of the code: C37_spins/C37_spin_forever, C37_overcounts, C37_wrapper_dangling, C37_destroyed_null_deref."
 },
 "C38": {
  "status": "proved",
  "note": "C38_immediate and C38_waits are the full characterisation. 'True iff readyRead' is false of the code: C38_close_reports_true, C38_unconnected_reports_true."
 },
 "C41": {
  "status": "proved",
  "note": "Reports is the full characterisation. 'A failure to start ends the wait' is false of the code: C41_failed_start_hangs."
 },
 "C44": {
  "status": "proved",
  "note": "Reports is the full characterisation. 'A refused connection ends the wait' is false of the code: C44_refused_hangs."
 },
 "C47": {
  "status": "proved",
  "note": "C47_waits is the step in which the call returns. Deviations: C47_destroyed_null_deref, C47_destroyed_hangs."
 },
 "C40": {
  "status": "proved",
  "note": "C40_result is an equivalence. Deviations: C40_null_device, C40_destroyed_null_deref."
 },
 "C46": {
  "status": "proved",
  "note": "C46_await_result is an equivalence, Reports the characterisation of waitForFinished. Deviations: C46_await_destroyed_hangs, C46_await_other_thread_lost."
 },
 "C48": {
  "status": "proved",
  "note": "C48_immediate and C48_result are the full characterisation. Deviations: C48_canceled_blocks, C48_canceled_later."
 },
 "C60": {
  "note": "C60_result is the exact characterisation. The server operation built on it dereferences a null server (C60_server_null)."
 },
 "C42": {
  "status": "proved",
  "note": "C42_started_exact, C42_finished_exact are exact for every interleaving of the thread's steps with the two checks. 'Misses no state change' is false of the code: C42_started_lost, C42_finished_lost, C42_wrong_answer."
 },
 "C43": {
  "status": "proved",
  "note": "C43_continues_iff is an equivalence for every schedule. Deviations: C43_finished_hangs, C43_late_start_lost, C43_ended_before_event."
 },
 "C50": {
  "status": "proved",
  "note": "'At least the requested time' is false of the code: C50_truncated, C50_sleepUntil_wrong."
 },
 "C51": {
  "note": "QCoroDBusPendingCall::waitForFinished suspends even when the call has finished (C51_call_always_suspends); characterised."
 },
 "C52": {
  "status": "proved",
  "note": "C52_open, C52_open_sync_ok, C52_open_sync_deaf, C52_ping cover every case. Deviations: C52_open_sync_error_hangs, C52_ping_any_pong."
 },
 "C58": {
  "status": "proved",
  "note": "Complete characterisation for every interleaving and any number of awaiters. 'No lost wake-up' is false of the code: C58_lost_wakeup, C58_lost_for_ever."
 },
 "C53": {
  "status": "proved",
  "note": "Exact undefined behaviour: C53_ub_iff. Nothing is lost or queued inside: C53_nothing_lost, C53_asks_waits. Deviations: C53_before_begin_lost, C53_busy_consumer_ub, C53_silent_hang."
 },
 "C54": {
  "status": "proved",
  "note": "C54_ub_iff and C54_wait_exact are exact. Deviations from the documented behaviour: C54_after_wait_uaf, C54_second_connection_lost, C54_timeout_loses, C54_concurrent_null."
 },
 "C55": {
  "status": "proved",
  "note": "C55_history (exact condition of every event), C55_answered (everybody gets a turn), C55_ub_iff (exact). Deviations: C55_copy_ub, C55_await_null_ub, C55_engine_ub, C55_second_gets_moved_from."
 },
 "C56": {
  "status": "proved",
  "note": "C56_finished_once, C56_ub_iff. Deviations: C56_failure_never_finishes, C56_deleted_uaf."
 },
 "C15": {
  "status": "proved",
  "note": "Every program, callback kind, way of making the continuation, and schedule. The condition of the statement for a lazy continuation of an lvalue is Same (Verif/Task/ThenMake.lean); it is needed: C15_lazy_lvalue_dangles, C15_lazy_lvalue_replaced. Which value the callback gets if others awaited the same task too is characterised as in C05; C15_exact_value is the case that nobody did."
 },
 "C16": {
  "status": "proved",
  "note": "Same scope as C15."
 },
 "C13": {
  "status": "proved",
  "note": "Every program, nesting of waitFor and schedule; Task or any other awaitable (Aim). Exactness of the value needs that nobody else took the task's result (see C05); completion-before-return needs that nobody else quits the nested loop (see C14); both conditions are in the theorems' hypotheses and C13_returns_result says what happens without them."
 },
 "C14": {
  "status": "proved",
  "note": "Exact: C14_ub_only_after_outside_quit, C14_quit_value_ub, C14_quit_void_returns, C14_quit_void_later_ub. The claim 'survives an outside quit' is false of the code: C14_value_counterexample, C14_void_counterexample."
 },
 "C61": {
  "note": "Every program and schedule. C61_circle_example: a coroutine awaiting itself does stand still for ever."
 },
 "C62": {
  "note": "Calls are identified by the step that makes them (Waits), the earlier one not having returned when the later one is made."
 },
 "C63": {
  "note": "C63_no_overtaking (order), C63_broadcast (all reached), C63_other_thread_overtakes and C63_timeout_overtakes (the limits are real)."
 },
 "C64": {
  "note": "C64_intermediate (what await(x) shows), C64_changes (from then on only the result changes it), C64_value (all histories)."
 },
 "C65": {
  "note": "C65_composes (any chain, any stages), C65_runs_through (progress for synchronous callbacks; a LazyTask link must have been started), C65_example."
 },
 "C66": {
  "note": "C66_body_is_a_sequential_program, C66_callback_is_a_sequential_program (against the small-step specification Plays in TalkSpec), C66_goes_on_where_it_stopped (the position of the body in each of its states); examples in ToldDemo. C66_answers and C66_arguments (Answers): the objects and flags the statements of a body are told, and what its Task parameters refer to."
 },
 "C67": {
  "note": "toTask's body is any body that behaves as `co_return co_await a` (Forwards); C67_outcome, C67_completes_iff (Task or other awaitable), C67_awaitable, C67_ready_awaitable (other awaitables), C67_connect (composition with C18; nobody else takes the result of the converted task). Concrete runs in ConvertDemo."
 },
 "C68": {
  "note": "The constructor's then() call with any coroutine callback that returns a function of its argument at once (Converts). C68_outcome (safety), C68_completes (progress; nobody else takes the task's result)."
 },
 "C69": {
  "note": "Any number of pending reading calls share the device (Wait/Readers.lean); Why lists the reasons for a return. C69_not_left_waiting assumes that every arrival is followed by readyRead."
 },
 "C70": {
  "note": "Overload resolution among the four return_value functions is computed from a ranking of the C++ rules; the user's types are arbitrary relations (Types) with three facts of C++ assumed (Sane)."
 },
 "C71": {
  "note": "A callable is an arbitrary map from (value category, argument types) to result types. Ordinary: its own value category does not matter."
 },
 "C72": {
  "note": "QTestResult's handling of expected failures is modelled after Qt. The QCORO_TRY_* macros use an undefined macro (QCORO_TRY_LOOP_IMPL), so they cannot be used at all; not modelled."
 },
 "C73": {
  "status": "proved",
  "note": "Complete characterisation for every interleaving (sequential consistency; the plain bool makes it a data race in C++ already). 'waitFor always returns' is false of the code: C73_lost_quit; so is memory safety: C73_dead_loop."
 },
 "C12": {
  "status": "proved",
  "note": "The model lets lazy tasks be moved as well: a superset, since LazyTask's user-declared destructor suppresses its move operations (DESIGN finding 25)."
 },
 "C74": {
  "status": "proved",
  "note": "Complete operations on executed programs (C12 states single steps). The only undefined behaviour is the user's own: using a Task object that does not exist."
 },
 "C75": {
  "status": "proved",
  "note": "C75_stage: one loop in an arbitrary history; C75_source: sources, also infinite ones; C75_pipeline: chains of any length; C75_no_deadlock. Hypotheses: nobody else advances the generator and nobody writes through iterators; PipeDemo shows a three-member chain that meets them and runs to its end."
 },
 "C76": {
  "status": "proved",
  "note": "The C++ overload rules used are part of the model (compared with g++ 13 on stand-alone declarations)."
 },
 "C77": {
  "status": "proved",
  "note": "Single inheritance; the include set is the closure of the headers' own includes."
 },
 "C78": {
  "status": "proved",
  "note": "Qt's emission semantics (connections added during an emission are not called, removed ones are skipped, destruction ends it) is modelled from Qt."
 },
 "C79": {
  "status": "proved",
  "note": "Connections are numbers; nextPendingConnection hands out the oldest (Qt documentation)."
 },
 "C80": {
  "status": "proved",
  "note": "Control-flow model of every public coroutine: order of uses of caller-owned objects and suspensions. The table Unsafe is proved to be exact (C80_dangles_iff): every listed pair has a run with undefined behaviour, every other pair none. All branches are taken to be possible."
 },
 "C81": {
  "status": "proved",
  "note": "C81_stage: one loop in an arbitrary history; C81_source: sources, also infinite ones; C81_pipeline: chains of any length. Hypotheses: nobody else advances the source and nobody writes through iterators (both can be seen in the log); PipeDemo shows a chain of three that meets them, with a stage that leaves its loop early."
 },
 "C82": {
  "status": "proved",
  "note": "All interleavings; exact characterisation of validity (C82_get_ub_iff) and of the value read (C82_get, C82_sound); overload table for all type arguments and operands (C82_yields_*)."
 },
 "C83": {
  "status": "proved",
  "note": "Model: one step for every atomic part of a co_await (await_ready, await_suspend), of the producer and of an event loop, any interleaving. `keep` is whether isFinished() stays true after takeResult(): the theorems hold for both, except C83_after_take_hangs (Qt 6: false). Found: takeResult() takes the result from coroutines that have been waiting longer (C83_taken, C83_found_overtakes). Reply: one thread (the one of the reply)."
 },
 "C84": {
  "status": "proved",
  "note": "Bounds are on the native stacks of the Task, Generator and AsyncGenerator models, as functions of the history. Hypothesis ub = none: re-entrant begin()/++ by a body on its own generator is undefined behaviour and characterised in C22/C26. Found: completion and destruction of a long chain of Tasks recurse to depth n + 1 (C84_found_chain)."
 },
 "C85": {
  "status": "proved",
  "note": "Threads take turns: one thread's synchronous run (from its event loop back to its event loop) is not interleaved with another's; the race in which two threads touch the same Task at the same time is outside (the library has no synchronisation there, see C57 for the reference count). Found: the awaiter of a Task continues on the thread on which the Task finished, and stays there (C85_found_awaiter_moves)."
 },
 "C86": {
  "status": "proved",
  "note": "The model of a signal wait with the converted interval (execQ) is proved to simulate the model of C27-C30 with another timeout, and so are all the calls of the Wait layer built on it (runQ), iterating listeners and their co_await (C86_listener), web socket message generators (C86_messages) and nextPendingConnection of a QWebSocketServer (C86_server). Overflow of the 64-bit duration_cast itself is outside. Found: before Qt 6.8 a wait of 25 to 49 days never times out, one of 2^32 ms times out at once, sleepFor(25 days) does not suspend."
 },
 "C87": {
  "status": "proved",
  "note": "Composition of the Task model (C01-C18, C61, C66) and the signal model (C27-C30), not a third model: C87_layers shows that both components are runs of the two models and the history a merge of theirs. Posted events of different objects may be delivered in any relative order (more schedules than Qt has)."
 }
}