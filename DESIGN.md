# Formal model of danvratil/qcoro in Lean 4

Source: `/repo`, read as text, never built. Model and proofs: `/verif/lean/Verif/**`. The English properties are in
`properties.jsonl` (C01…); theorem names start with the id of their property; `MANIFEST.json` lists them
(`tools/gen_manifest.py`); `seeded/LOG.jsonl` lists the wrong programs the theorems were tested against.

## 1. Shape of the models

Every component is a deterministic machine `step : State → Op → State`, run by `exec` over a list of `Op`s.

* The `Op`s are the choices of the *environment*: which API call is made next by code outside coroutines, which signal is
  emitted on which thread (for Task: also from inside coroutine bodies and callbacks, nested), when the event loop delivers a posted event or looks at its timers, when time passes, when an
  object is destroyed, which thread makes the next step. Theorems quantify over all lists of `Op`s, so over all schedules.
* *User code* (coroutine bodies, callbacks, consumers, producers) is an arbitrary transducer `σ → Response → σ × Action`
  over an arbitrary state type, so theorems quantify over all programs. Nothing is bounded: number of coroutines, objects,
  awaiters, threads, bytes, messages, steps.
* *Undefined behaviour* is a value (`ub`), sticky, with its cause; it is never assumed away. "Undefined behaviour occurs
  exactly when …" is proved as an equivalence where the property says so.
* Observable effects are collected in a log (trace); properties are predicates on traces, defined in `Spec`/`Trace` files that
  do not use the machine's internal helpers.

Files per component `X`: `Model` (definitions, each citing the modelled lines), `Spec`/`Trace` (vocabulary of the statements),
`Inv`, `Step`, … (invariants), `Props`, `…Props`, `Owner`, `Ub`, `…Exact`, `…Demo` (the property theorems with, next to them, an
`example` showing that a concrete non-trivial run meets the hypotheses).

Where the code does not do what its documentation or common sense says, the property states what it does do, exactly, and a
counterexample theorem proves on a concrete run that the stronger claim is false (section 4).

## 2. What is modelled

| directory | code of /repo | properties |
|---|---|---|
| `Task` | `impl/{task,lazytask,taskbase,taskawaiterbase,taskfinalsuspend,taskpromise,taskpromisebase,waitfor,connect}.h`: frames on a native call stack, promise, reference count, awaiter list, the final-suspend loop, Task objects with moves, assignments and drops, LazyTask, `then` (both overloads, with error callback, async and sync callbacks), `connect`, nested `waitFor` (of Tasks and of other awaitables) with event loops; `co_return`'s overloads (`CoReturn`), callback shapes of `then`/`connect` (`Callback`), `toTask` (`Convert`) | C01–C18, C61, C62, C65–C68, C70, C71, C74 |
| `Generator` | `qcorogenerator.h` complete; chains of range-for loops over generators (`Pipe`, `Pipeline`, `StageAt`, `PipeProps`, `PipeDemo`) | C19–C22, C81 |
| `Yield` | which `yield_value` an operand of co_yield selects, the address stored in the promise, `*it`, objects and their lifetimes (`qcorogenerator.h:32`, `:74-102`, `:155`, `:184-186`; `qcoroasyncgenerator.h:129-158`, `:202`, `:227-229`) | C82 |
| `Await` (Shared, SharedReply) | several coroutines on one future, D-Bus call or reply: watchers, posted events, blocked threads, `takeResult` (`qcorofuture.h:24-79`, `qcorodbuspendingcall.cpp:16-32`, `qcorodbuspendingreply.h:38-54`, `qcoronetworkreply.cpp:39-81`) | C83 |
| `Task/Depth`, `Generator/Depth`, `AsyncGen/Depth` | native stacks of the three models (no new model code) | C84 |
| `Task/Place`, `AsyncGen/Place` | the Task and asynchronous generator models with the thread of every step (no new model code) | C85 |
| `Wait/Long`, `Listener/Long`, `WebSocket/Long`, `WebSocket/ServerLong` | signal waits, iterated listeners (`qcorosignal.h:251-343`), web socket messages and connections, all calls of `Wait` and `sleepFor` with QTimer's interval as an `int` (`qcorosignal.h:111-130`, `qcorotimer.h:59-64`; `Sig.stepQ`, `Wait.runQ`, `sleepForQ`) | C86 |
| `World` | the Task model and any number of copies of the signal model in one thread: a `co_await` that suspends in the one begins a wait in the other, a wait that ends there continues the coroutine here (`qcorosignal.h:112-115`, `:123-130`, `:200-232`, `:353-375`) | C87 |
| `Lifetime` | every public coroutine as the order of its uses of caller-owned objects and its suspensions (all of `core`, `network`, `dbus`, `websockets`, `taskbase.h` `then`, `toTask`, ImageProvider) | C80 |
| `Wait.Servers` | any number of pending `waitForNewConnection` calls on one QTcpServer (`qcorotcpserver.cpp:37-51`), on top of `Wait` | C79 |
| `Await.Timers` | any number of `co_await timer` on one QTimer, resumed inside the emission, with re-entrant timeouts (`qcorotimer.cpp:13-34`) | C78 |
| `Dispatch` | `await_transform` and the concepts of `coroutine.h`, `awaiter_type` specialisations, `qCoro()` overloads, `connect` on awaitables (`qcorotask.h:146-155`, `:475-501`, `impl/taskpromisebase.h`, `impl/connect.h`, headers of the Qt classes) | C76, C77 |
| `AsyncGen` | `qcoroasyncgenerator.h` complete, `QCORO_FOREACH` (`Loop`), chains of loops over generators (`Pipe`, `Pipeline`, `Deadlock`) | C23–C26, C75 |
| `Signal` | `core/qcorosignal.h` single waits (both overloads), argument handling (`Args`), `core/impl/isqprivatesignal.h` | C27–C32, C59, C63 |
| `Listener` | `qCoroSignalListener`, `QCoroSignalQueue` on top of AsyncGenerator | C33, C34 |
| `Wait` | the wait helpers and `waitFor…`/read/write functions of `qcoroiodevice*`, `qcoroprocess`, `qcorothread`, `qcoroabstractsocket`, `qcorolocalsocket`, `qcoronetworkreply`, `qcorotcpserver`, `qcorotimer`, D-Bus, `qcorowebsocket` (open, ping) | C35–C39, C41, C42, C44–C47, C49–C52, C59, C69 |
| `Await` | the awaiter classes (`co_await` on the Qt object itself): device, reply, server, timer, future (3 kinds), D-Bus call/reply, `waitoperationbase_p.h` | C40, C46, C48, C49, C51, C59, C60 |
| `Threads` | atomic reference count, cross-thread awaiting, `moveToThread`, cross-thread `waitFor` | C43, C57, C58, C73 |
| `WebSocket` | message generators of `qcorowebsocket.cpp`, `qcorowebsocketserver.cpp` | C53, C54 |
| `Qml` | `qml/qcoroqmltask.{h,cpp}` (`Task`), `quick/qcoroimageprovider.cpp` (`Image`) | C55, C56, C64 |
| `Test` | the macros of `test/qcorotest.h` (without `QCORO_TRY_…`, which do not compile) | C72 |

Files named `Witness*` (and `World/Demo`) apply the theorems to concrete, non-trivial runs, so that the hypotheses of each are seen to be
met. Looking for such runs found one theorem without any (a message generator never has a backlog inside, C53); it was replaced by
`C53_nothing_lost` and `C53_asks_waits`.

How each is proved: a global invariant preserved by every step (induction over `exec`), then trace theorems from the invariant.
Per property:

| id | method |
|---|---|
| C01–C04, C06–C12 | `Inv` (ownership, stack discipline, awaiter lists, phases) + log invariant `LInv`; `Props.lean` |
| C05 | log invariant relating the n-th `got` to n moves of the returned value |
| C13, C14 | phases of the `runCoroutine` helper of every `waitFor` frame (`WaitInv`…`WaitQuit`) |
| C61 | who is on the stack, in an awaiter list or waiting outside (`Inv`, `LInv`); pigeonhole on the finite await graph (`Progress`) |
| C65 | induction on the chain, each link by the `Story` of its continuation (`Chain`) |
| C66 | `TalkSpec`: the body as a sequential program that is told the answer of each statement (`Plays`), and what of it can be seen; `Told`: invariant `Where` = the machine's position is a point of such an execution, kept by every step of anybody; for then-callbacks from the birth of their coroutine |
| C67 | invariant of a body `co_return co_await a` (`Convert`), composed with C18 |
| C68 | C15/C16 composed with C66 of the callback coroutine (`Mapped`) |
| C69 | each pending call is in the state of a single call in the environment it sees (`PInv`), so C35 applies to it; the shared device is the stream minus what was taken (`Readers`) |
| C74 | well-founded induction on (live objects, pending destructions); `Moves.lean` |
| C76, C77 | case analysis over arbitrary types and class hierarchies (`Dispatch`) |
| C78 | invariant over emissions in progress: waiting queue = suspended minus continued, each emission still owes those who waited before it |
| C79 | as C69: every pending call is a single call (`Wait.run`) in the environment the others make; the queue of connections is conserved |
| C80 | trace semantics of control flows with branches and loops; a static analysis (`susp`, `uses`, `late`) proved sound and complete by induction on runs / on the flow; then evaluated for the 60 functions and 7 kinds of object, which are finite enumerations |
| C75 | simulation of the loop by a specification of stages (`Through`), kept by every step of everybody; induction on the chain; rank function for the waits-for relation |
| C81 | as C75 for synchronous generators: every step is classified (`StepCase`: idle, call of the main program, call of a body, a body left), an invariant (`At`) says where the loop is – in begin()/++ below its source on the native stack, between two calls, in its body, over –, kept by every step of everybody |
| C82 | overloads: case analysis over all type arguments and operands; objects: invariant tying memory to the history (value = last write, lifetime over = scope/resumption/end events), kept by every step for arbitrary bodies |
| C83 | history-based specification (who suspended, who continued, what the future held, whether it was taken); invariant of the shared state kept by every atomic step; order and completeness from the queue invariant; liveness by induction on the events posted |
| C84 | the native stack is part of the models; no coroutine twice on it from the invariants, bounded by the coroutines that exist by counting; for generators an exact balance of events by induction on the history; the chain of n Tasks by induction on n with explicit states |
| C85 | steps carry the thread that makes them; which events and activations one step can add, by cases over the whole interpreter (`Q`); invariant: everybody on the stack was last made to execute on the current thread; home threads by strong induction on the history |
| C86 | functional simulation (`abs`, `absS`): the model with converted intervals is the model of C27–C30 with another timeout, step by step; conversion is `Int.bmod`, described by `%` |
| C87 | invariant over the common history: a wait in the signal model is pending iff its coroutine is suspended in it in the Task model; then C61 (who keeps whom), C66 (bodies are sequential programs) and the laws of C27–C30 are combined |
| C70 | ranking of the four overloads by the C++ rules, case analysis over operand kinds (`CoReturn`) |
| C71 | case analysis over arbitrary callables (`Callback`) |
| C72 | induction over the test body against a big-step specification `Runs` (all macros, expected failures, exceptions) |
| C62 | activations of `waitFor` on the stack are ordered by call (`WInv.sorted`) |
| C15–C18 | the continuation coroutine as library code of the same machine: its history is a `Story` (`ThenSpec`), invariant `TI` |
| C19–C22 | `Legal`: the trace is a run of a specification automaton over the body's yields; ownership automaton in `Owner` |
| C23–C26 | the same for the producer/consumer machine; `Loop` for `QCORO_FOREACH` |
| C27–C30 | invariant over waits × posted events × timers × threads |
| C63 | invariant `Ord`: in each event queue the events of earlier waits come first |
| C31, C32 | functions on type lists / character lists; induction |
| C33, C34 | queue invariant (`delivered ++ queue ++ posted = emitted`), exact ub in `Ub` |
| C35–C39, C41, C42, C44–C47, C49–C52 | one generic machine for "helper object + signal wait + timeout", its `Reports` theorem instantiated per class |
| C40, C46, C48, C49, C51, C60 | one generic awaiter machine, instantiated per class |
| C43, C57, C58, C73 | interleavings of atomic steps of any number of threads, invariants |
| C53 | simulation of the listener machine by the generator's body (`sim`), then C33/C34 |
| C54 | invariant over calls × connected functors × queues; exact in `ServerExact` |
| C55, C64 | invariant over handles × continuations × listeners; every event checked against its exact condition `ok` |
| C56 | response machine |
| C59 | timer armed iff timeout ≥ 0, in Signal, Wait, Await |

## 3. Trusted base

* Lean 4.33.0's kernel. Axioms of the theorems: at most `propext`, `Classical.choice`, `Quot.sound`. No axiom is declared, no
  compiled evaluation (`native_decide`, `bv_decide`) is used. No Mathlib module is needed by most files.
* The reading of the C++ code and of the C++20 coroutine transformation (by hand; the code is not executed).
* Qt, as documented: a queued connection posts one event per emission to the receiver's thread, in order; a direct one calls at
  once; `disconnect` and the destruction of sender or receiver stop future calls, destroying the receiver discards its posted
  events; a `QPointer` is null once its object is destroyed; a single-shot timer fires at most once and not before its
  interval; `QFutureWatcher`/`QDBusPendingCallWatcher` report `finished` once, also if the operation has already finished;
  `QTcpServer`/`QWebSocketServer` queue pending connections in order of arrival; QThread's states and signals.

### Simplifications (also in the comments of the definitions)

* User values: Task, Generator and AsyncGen range over arbitrary types of local states, values and exceptions, with arbitrary functions
  for "what a move leaves behind" and "derives from std::exception"; the others use naturals as identities. Copy/move constructors and destructors of user types do nothing else (in particular they do
  not call the library). Allocation never fails.
* Task: move assignment empties the destination before it releases the old coroutine (the same unless a destructor of
  user code looks at it); an inline callback of `then` is an ordinary function; `static_cast` in `thenImpl` is the identity; the
  callbacks of `then` are copied at the call (for a LazyTask they are copied when it starts: C80, finding 32).
* Yield: an object is a number with a value; subobjects, moves out of yielded objects and conversion functions to references are not modelled; a body
  left by an exception ends like one that returns (what the exception does is C20, C24).
* Shared: the content of the future is known when it finishes (results reported earlier are not visible before); void futures have no result to
  take; between `await_ready` and `await_suspend` of a coroutine anything may happen, also in its own thread (more schedules than there are).
* Place: threads take turns; while one has coroutines on its native stack no other makes a step (a data race on one Task is outside).
* Lifetime: every branch is possible; values are not modelled; only objects of the caller count.
* AsyncGen: frames destroyed by the library own no generators (objects are destroyed by explicit `drop`). Coroutines may be
  started or resumed at any time, from the event loop or nested inside any executing body (native stack).
* Await: one `co_await` per awaiter object (no second `co_await` on the same temporary in one full expression).
* Qt's coarse timers (5 %) are modelled as precise.
* Wait: the posted events of the helper and of the caller are two FIFO queues served in any relative order, which
  over-approximates Qt's one queue per thread.
* Threads: sequentially consistent interleavings of the atomic steps named in the model; a QThread is the cyclic sequence of its
  observable steps. `std::vector::push_back` racing with the copy of the vector (a data race in C++) is one atomic step: C58 is
  already negative at this level.
* WebSocketServer: sockets are numbered by the environment, which also chooses when one arrives: a limit on pending connections only
  removes schedules.
* CoReturn, Callback: types are known by their constructibility, convertibility and invocability; ordinary C++ ([over.match.best]).
* World: one coroutine thread; events posted by different objects are delivered in any relative order (Qt has one queue per thread: fewer
  schedules); whether an awaitable is ready is decided by the object, and a step of a program that assumes the contrary is not made.
* QmlTask: the Task inside is used through what C04, C05, C15, C16 prove about it (continuations resumed in order by the completing
  Task, at once if it has completed); what a JS function does is any sequence of operations before the next continuation's turn.

### Not modelled

Compile-time machinery other than C31, C32, C70, C71, C76 and C77, logging, CMake, QML type registration, the compiler compatibility
part of `coroutine.h` (lines 1-250), the `QCORO_TRY_…` macros of
`test/qcorotest.h` (they use `QCORO_TRY_LOOP_IMPL`, which is defined nowhere), and the bodies of Qt functions.

## 4. Findings (each proved on a concrete run of the model)

1. A Task awaited several times: later awaiters get the moved-from value (`C05_later_awaiter_counterexample`).
2. A LazyTask that is never awaited leaks (`C02_unawaited_lazy_leaks`); `then()` on an lvalue LazyTask keeps a reference to the
   variable (`C15_lazy_lvalue_dangles`, `C15_lazy_lvalue_replaced`).
3. Quitting `waitFor`'s nested loop from outside: empty-optional dereference for `Task<T>`, later write into a dead context for
   `Task<void>` (`C14_value_counterexample`, `C14_void_counterexample`).
4. Move assignment of Generator/AsyncGenerator leaks the old coroutine (`C22_move_assign_leaks`, `C22_self_assign_leaks`,
   `C26_…leak`).
5. Destroying an AsyncGenerator whose producer is suspended in a `co_await` of its own: use after free on completion
   (`C26_abandoned_while_awaiting`).
6. A signal listener (and the WebSocket generators) whose consumer suspends elsewhere in the loop body – the documented use – is
   undefined behaviour on the next emission (`C33_documented_use_ub`, `C53_busy_consumer_ub`).
7. A signal wait whose object is destroyed never ends, not even at its timeout, since the timer's slot is connected with the
   object as context (`C29_destroyed_never_ends`, `C34_destroyed_hangs`); on a null object the overload without timeout
   dereferences an empty optional.
8. `waitForReadyRead` is true for a close, an error and an unconnected socket (`C38_close_reports_true`, …).
9. `write()`: livelock when emissions coincide, over-counting of earlier writes, dangling wrapper, null dereference
   (`C37_spins`, `C37_overcounts`, `C37_wrapper_dangling`, `C37_destroyed_null_deref`).
10. `waitForStarted` of a process that fails to start and `waitForConnected` of a refused socket hang (`C41_failed_start_hangs`,
    `C44_refused_hangs`).
11. Threads: lost starts/ends and wrong answers between check and subscription (`C42_*`), cross-thread await loses its wake-up
    (`C58_lost_wakeup`), `moveToThread` to a finished thread hangs (`C43_*`), reply of another thread missed
    (`C46_await_other_thread_lost`).
12. `sleepFor` truncates to milliseconds; `sleepUntil` subtracts the steady clock from any clock (`C50_*`).
13. A canceled but running QFuture blocks the thread; without result: undefined behaviour (`C48_*`).
14. `QWebSocketServer::nextPendingConnection`: the listener's functor is connected without context and survives it (use after free,
    steals connections), connections lost, concurrent calls get nullptr (`C54_*`).
15. QmlTask: using a QmlTask of which a copy exists detaches (`Q_UNREACHABLE`), `await()` on a null one dereferences it, a JS
    function whose engine is gone is dereferenced, second continuations get the moved-from value (`C55_*`); ImageProvider: never finished on failure, use after free when deleted (`C56_*`).
16. WebSocket `ping` takes any pong; `open` misses what is emitted synchronously; messages before the first `begin()` are lost
    (`C52_*`, `C53_*`).
17. `is_qprivatesignal` takes any type whose name ends in `QPrivateSignal` for one (`C32_*`).
18. Socket helpers may emit `ready` twice; the reply helper's error can be overtaken (`C36_*`).
19. A device/server destroyed between the signal and its delivery is dereferenced (`C35_destroyed_null_deref`,
    `C40_destroyed_null_deref`, `C47_destroyed_null_deref`, `C60_server_null`).
20. `QCoroDBusPendingCall::waitForFinished` suspends even if finished (`C51_call_always_suspends`).
21. A stopped or destroyed QTimer never resumes its awaiter (C49).
22. `co_return m_member;` moves from the member: the forwarding `return_value(U &&)` is the better match for a non-const lvalue and
    does `std::move` (`C70_member_emptied`, `C70_lvalue_is_moved`).
23. `then` with a callback callable both ways is typed by one call and makes the other (`C71_both_ways_rejected`); it needs a default
    constructible result even without an error callback (`C71_needs_default`); `connect` accepts functions it cannot call
    (`C71_context_function`).
24. The `QCORO_TRY_…` test macros do not compile (`QCORO_TRY_LOOP_IMPL` is undefined).
25. `LazyTask` can be neither moved nor move-assigned: its user-declared destructor suppresses the implicit moves. The model of Task
    allows such moves (a superset of the programs that compile).
26. `waitFor` on something that completes on another thread: a quit between the check and the loop is lost (`C73_lost_quit`), and the
    context may be gone when the other thread quits its loop (`C73_dead_loop`).
27. A type with only `operator co_await() &&`, or with `await_ready()` not returning exactly `bool`, cannot be awaited in a Task; Qt types
    cannot be awaited directly in an AsyncGenerator (`C76_rvalue_operator_rejected`, `C76_int_ready_rejected`, `C76_generators`).
28. `connect(awaitable, …)` with a named awaitable and a callback that takes the result does not compile; with a temporary that is its own
    awaiter the converted task refers to the dead temporary (`C76_connect_iff`, `C76_connect_awaits`).
29. Without the right header `qCoro(object)` of a socket, reply or process is silently a mere QIODevice wrapper; `co_await` on a pointer to a
    class derived from QNetworkReply, or on `*reply`, reads instead of waiting for the end (`C77_missing_header_silent`, `C77_reply_read`).
30. A coroutine awaiting a QTimer that is destroyed by another coroutine continued by the same timeout waits for ever
    (`C78_destroyed_strands`).
31. Of two concurrent `waitForNewConnection` calls one returns null at once when the other takes the only connection (`C79_empty_handed`).
32. `then()` that yields a LazyTask keeps its callbacks by reference until it is awaited (`taskbase.h:136-137`, `169-170`): callbacks given as
    temporaries are dead unless it is awaited in the same expression, the default error handler always is (`C80_default_handler`; harmless
    in practice only because that lambda is stateless).
33. `ImageProvider::requestImageResponse` passes the id and size on by reference to a coroutine (`C80_image`): an implementation with the
    documented signature that uses them after a `co_await` reads freed memory.
34. `AsyncGenerator<T &&>` cannot be used: its promise's `get_return_object` returns `AsyncGenerator<T>`; `co_yield` of a const variable in a
    `Generator<T>` does not compile; a reference kept to a yielded temporary dangles after `++it`, as does a second copy of an asynchronous
    iterator while the generator runs on (`C82_yields_nothing`, `C82_found_temporary`, `C82_found_async`).
35. `takeResult()` on a shared future takes the result from coroutines that have been waiting longer for it, even by a coroutine that did not
    suspend (undefined behaviour in those; `C83_taken`, `C83_found_overtakes`); with Qt 6 a `co_await` on the future after that never returns
    (`C83_after_take_hangs`). The first of several coroutines that `delete`s the reply they wait for makes the others get a null pointer,
    while `deleteLater()` is safe (`C83_reply_delete_null`, `C83_reply_deleteLater`).
36. A long chain of Tasks needs a deep stack: completion resumes every awaiting coroutine from within the completion of the one before
    (`awaiter.resume()` in `taskfinalsuspend.h:24-34`, no symmetric transfer), and destroying the last Task destroys all frames nested in each
    other (`C84_found_chain`: for every n, building takes one activation, completion and destruction n + 1). Asynchronous generators, which use
    symmetric transfer, do not have this (`C84_async_flat`).
37. A coroutine that awaits a Task of another thread continues on that other thread, for good: `TaskFinalSuspend::await_suspend` resumes awaiters
    where the Task has finished (`taskfinalsuspend.h:24-34`; `C85_woken`, `C85_found_awaiter_moves`). It stays on its thread only if everything it
    awaits does (`C85_home`). With an asynchronous generator the two move each other: the consumer continues where the generator does, the generator
    where the consumer calls `++` (`C85_gen_found_moves`).
38. Long timeouts: before Qt 6.8 `QTimer` converts the `std::chrono::milliseconds` it is given to `int`. `timeout.count() > -1` is tested before the conversion
    (`qcorosignal.h:125-127`), so a timeout of 2³¹ to 2³² − 1 ms creates a timer that never starts and the wait never times out (`C86_never`,
    `C86_found_hangs`; loops over listeners: `C86_listener_never`, `C86_found_listener_early`; `C86_found_server`); 2³² ms time out at once; `sleepFor(25 days)` does not suspend, `sleepFor(50 days)` sleeps 7 hours (`C86_found_sleep`).
