import json
P=[]
def p(id,title,statement,quant,why,anchors):
    P.append(dict(id=id,title=title,statement=statement,quantifier=quant,why_tests_cant=why,anchors=anchors))
T="qcoro/impl/"
p("C01","Task coroutine frames are memory safe","No sequence of calling, moving, move-assigning, dropping, awaiting (any number of times), then()-chaining, connect()-ing or waitFor()-ing Task/LazyTask objects makes the library resume a destroyed or finished coroutine, read the promise of a destroyed one, destroy a frame twice or underflow its reference count; the only undefined behaviour reachable is a named misuse of the API (using a dead Task object, awaiting an empty LazyTask, re-awaiting a running LazyTask, waitFor whose loop is quit from outside).","every program (arbitrary, possibly infinite coroutine bodies) and every schedule of external completions, event-loop runs and loop exits","the property ranges over every program and every interleaving of handle destruction with completion; a sanitizer run only covers the programs in the test-suite",[T+"taskpromisebase.h: TaskPromiseBase::derefCoroutine, refCoroutine, destroyCoroutine",T+"taskfinalsuspend.h: TaskFinalSuspend::await_suspend",T+"taskbase.h: TaskBase"])
p("C02","A coroutine frame is freed exactly when it is finished and unreferenced","The frame of a Task coroutine is destroyed exactly once, at the first moment at which its body has completed (and its awaiters were resumed) and no Task object refers to it any more; never earlier, and it is not leaked. (A LazyTask that is dropped before ever being awaited is the exception: it is leaked.)","every program and schedule; every number of Task objects and moves","leak/early-free freedom is a statement about all orders of object destruction and completion",[T+"taskpromisebase.h: derefCoroutine",T+"taskbase.h: ~TaskBase, operator=",T+"taskfinalsuspend.h",T+"lazytask.h: ~LazyTaskPromise"])
p("C03","Dropping a Task never cancels the coroutine","Destroying or overwriting every Task object of a started, unfinished coroutine leaves it suspended exactly as it was: when what it waits for completes it continues and runs to completion.","every program, every suspension point, every schedule","needs all orders of drop vs. completion",[T+"taskbase.h: ~TaskBase",T+"taskpromisebase.h: derefCoroutine","docs/reference/coro/task.md"])
p("C04","Every awaiter of a Task is resumed exactly once, in await order, and only after completion","All coroutines that suspended in co_await on one Task are resumed exactly once each, in the order in which they awaited it, after the awaited coroutine completed; none is lost and none is resumed early or twice.","every program and schedule, any number of concurrent awaiters","exactly-once/FIFO wake-up over unbounded awaiters and all schedules",[T+"taskfinalsuspend.h: await_suspend",T+"taskawaiterbase.h: await_suspend",T+"taskpromisebase.h: addAwaitingCoroutine"])
p("C05","co_await returns exactly the value the coroutine co_returned","The value obtained by co_await is the one the awaited coroutine passed to co_return, for each awaiter. (As implemented, the value is moved out: the first awaiter gets it, the k-th one gets what k-1 moves leave behind.)","every program, every value, every number of awaiters","universally quantified data-flow through arbitrary suspension/resumption orders",[T+"taskpromise.h: TaskPromise::result, return_value",T+"taskbase.h: operator co_await"])
p("C06","An exception escaping a coroutine reaches every awaiter unchanged","If the body exits by an exception, every co_await of that Task rethrows that very exception, whether it awaits before or after completion, and no awaiter sees a value.","every program, exception and awaiter count","needs all orders of await vs. throw",[T+"taskpromise.h: unhandled_exception, result",T+"taskbase.h: operator co_await"])
p("C07","Task coroutines start eagerly and run synchronously to their first suspension","Calling a Task coroutine runs its body immediately, before the call returns to the caller, up to its first suspension point or its end.","every program and nesting of calls","over all bodies and nesting depths",[T+"taskpromisebase.h: initial_suspend","docs/reference/coro/task.md"])
p("C08","LazyTask runs nothing until awaited and then starts exactly once","The body of a LazyTask is not executed before it is co_awaited (also through then(), connect() or waitFor()); the first await starts it, and it is started at most once.","every program and schedule","absence of execution for all programs",[T+"lazytask.h: initial_suspend, operator co_await","docs/reference/coro/lazytask.md"])
p("C09","isReady() tells the truth","isReady() is true exactly when the coroutine has completed (or the Task is empty); once true for a Task it stays true.","every reachable state","over all reachable states",[T+"taskbase.h: isReady"])
p("C10","Awaiting a completed Task never suspends; awaiting an unfinished one always does","co_await on a finished Task continues synchronously with its result; co_await on an unfinished one suspends the awaiter until the Task finishes, it never continues earlier.","every program and schedule","premature resumption must be excluded on all schedules",[T+"taskawaiterbase.h: await_ready, await_suspend"])
p("C11","Awaiting an empty Task hangs the awaiter and nothing else","co_await on a default-constructed or moved-from Task suspends the awaiting coroutine for ever, without touching any other coroutine or invoking undefined behaviour.","every program and schedule","'never resumed' is a statement about every continuation of the execution",[T+"taskawaiterbase.h: await_suspend (mAwaitedCoroutine null)"])
p("C12","Moving a Task transfers the coroutine, the source becomes empty, self-move is a no-op","After move construction/assignment exactly the destination refers to the coroutine, the coroutine itself is not disturbed, the overwritten coroutine loses one reference; self move assignment changes nothing.","every program, every object pair","all aliasing patterns of handles",[T+"taskbase.h: TaskBase(TaskBase&&), operator=(TaskBase&&)"])
p("C13","waitFor returns the result of what it waits for, only after it completed","QCoro::waitFor returns exactly the value co_returned by the task (or rethrows exactly its exception), provided nobody else consumed the task's result, and for an awaitable that is not a Task exactly what it produces; it returns only after what it waits for completed unless somebody else quits its event loop; it hands the outcome to its own caller, returns as soon as control is back in it and the task is finished, returns at most once, and does not enter the event loop at all if the task already finished or the awaitable is ready.","every program, every nesting of waitFor, every schedule of events","all schedules of event loop iterations and nested waits",[T+"waitfor.h: waitFor, runCoroutine"])
p("C14","waitFor survives the nested event loop being quit from outside","If the event loop waitFor runs is exited by someone else before the task finished (e.g. application quit), waitFor still does not invoke undefined behaviour.","every program and schedule with external loop exits","depends on quit timing",[T+"waitfor.h: waitFor (return std::move(*context.result))"])
p("C15","then() calls the callback exactly once with the result, after completion","task.then(cb): cb is called exactly once with the task's value after it finished successfully, never if it failed or did not finish; the returned task finishes with the callback's result (awaiting it if it is itself a task); then() called on an lvalue and yielding a LazyTask refers to the variable, which must still hold the task when the continuation is started.","every program, callback and schedule; sync and coroutine callbacks","exactly-once over all schedules",[T+"taskbase.h: thenImpl, thenImplRef, invokeCb"])
p("C16","then() error routing","If the task fails: with an error callback and a std::exception the error callback is called exactly once with it and the resulting task yields a default value; otherwise (no error callback, or not a std::exception) the resulting task fails with the same exception and no callback runs.","every program, exception and schedule","all exception kinds on all schedules",[T+"taskbase.h: then, thenImpl, handleException"])
p("C17","then() on a temporary Task keeps the task alive until the chain is done","Chaining then() on an rvalue keeps the Task in the continuation so dropping everything else does not destroy it early; frame and parameter are released when the continuation is.","every program and schedule","ownership over all schedules",[T+"taskbase.h: then(...) &&, thenImpl"])
p("C18","QCoro::connect calls back exactly once iff the context object is alive at completion","connect(task, ctx, f): f is called exactly once with the result if ctx is alive when the task completes, and never if ctx was destroyed before.","every program, every order of ctx destruction and completion","all orders of destruction vs. completion",[T+"connect.h: connect"])
p("C19","Generator yields exactly the co_yielded values in order","Iterating a Generator from begin() to end() produces each value the body co_yields once, in order, and ends exactly when the body ends.","every body (any number of values, infinite included), every number of increments","all lengths",["qcoro/qcorogenerator.h: GeneratorIterator, Generator::begin"])
p("C20","Generator is lazy","The body executes nothing before begin(), and each increment executes exactly one segment up to the next co_yield; values that are not asked for are never computed.","every body and number of increments","absence of execution",["qcoro/qcorogenerator.h: initial_suspend, begin, operator++"])
p("C21","Generator exceptions surface once, at the right place","An exception thrown in the body after k values is thrown from the (k+1)-th advance (begin or ++), the iterator then equals end(), and all k values were delivered before.","every body, every position of the throw","all positions",["qcoro/qcorogenerator.h: rethrowIfException, operator++, begin"])
p("C22","Generator objects own their coroutine frame","Constructing, moving and destroying Generators destroys each generator's frame exactly once and never resumes a destroyed one. (Move assignment over a live Generator is the exception: it leaks the old frame.)","every sequence of generator object operations","all histories of moves",["qcoro/qcorogenerator.h: ~Generator, Generator(Generator&&), operator="])
p("C23","AsyncGenerator delivers exactly the co_yielded values in order on every schedule","A consumer doing co_await begin()/++ receives each co_yielded value exactly once, in order, regardless of how often and how long the producer suspends in co_awaits between yields, and sees end exactly when the producer returns.","every producer, every consumer, every schedule of completions","all asynchronous schedules and lengths",["qcoro/qcoroasyncgenerator.h: AsyncGeneratorPromiseBase, IteratorAwaitableBase, AsyncGeneratorYieldOperation"])
p("C24","AsyncGenerator producer and consumer alternate strictly","The producer runs only while the consumer is suspended in begin()/++ and vice versa; the producer does no work before begin() and is not advanced beyond the requested value. Each continues exactly where it stopped, told the result of what it did: the consumer the iterator, end or exception; the producer, when its co_yield is over, what the co_yielded variable contains now (the consumer may have written through the iterator), also when other coroutines are started or resumed inside executing bodies.","every producer/consumer/schedule","all schedules",["qcoro/qcoroasyncgenerator.h: await_suspend, final_suspend"])
p("C25","AsyncGenerator exceptions surface at the right advance","An exception in the producer is rethrown by the co_await of begin()/++ during which it occurred, after which the iterator equals end(); all earlier values have been delivered.","every producer, position and schedule","all positions and schedules",["qcoro/qcoroasyncgenerator.h: rethrow_if_unhandled_exception, await_resume"])
p("C26","Abandoning an AsyncGenerator is safe","Destroying an AsyncGenerator destroys its frame once and nothing resumes it afterwards. (Holds while the producer is suspended at a co_yield or not started; if it is suspended in a co_await of its own, the pending awaiter dangles.)","every point at which it can be destroyed","all destruction points",["qcoro/qcoroasyncgenerator.h: ~AsyncGenerator"])
p("C27","co_await qCoro(obj, signal) returns the arguments of the first emission after the await","The awaiter is resumed exactly once, with the arguments of the first emission that happens after the await began, whatever emissions follow before the event loop delivers it; later emissions do not resume it.","every sequence of emissions, deliveries and timer events","all interleavings of emissions and queued deliveries",["qcoro/core/qcorosignal.h: QCoroSignal::setupConnection, await_suspend, await_resume"])
p("C28","Signal wait with a timeout resumes exactly once, by emission or by timeout","With timeout t>=0, exactly one of {signal result, nullopt} is delivered: nullopt iff the timer expires before an emission has been delivered; with a negative timeout it never times out.","every order of emissions, deliveries, timer expiry","race between queued delivery and timer on all orders",["qcoro/core/qcorosignal.h: handleTimeout, QCoroSignal"])
p("C29","Waiting for a signal of a destroyed or null object","If the object is null the await completes immediately with nullopt (timeout variant); if it is destroyed while waiting a wait with timeout still ends by timeout.","every destruction point","all destruction points",["qcoro/core/qcorosignal.h: await_ready, handleTimeout"])
p("C30","A signal awaiter resumes in the thread in which it suspended","Whatever thread emits the signal, the awaiting coroutine is resumed on the thread that executed the co_await, never synchronously inside the emission.","every emission thread and schedule","all cross-thread interleavings",["qcoro/core/qcorosignal.h: setupConnection (Qt::QueuedConnection, mDummyReceiver)"])
p("C31","Signal results carry exactly the public signal arguments","The awaited result consists of the signal's arguments in order, without QPrivateSignal; one remaining argument is unwrapped, zero yield an empty tuple.","every signal signature and argument list","all arities",["qcoro/core/qcorosignal.h: args_tuple, filtered_tuple_t, unwrapped_tuple, storeResult"])
p("C32","QPrivateSignal detection is exact on type names","A type is taken for a private signal exactly if its printed name ends in QPrivateSignal directly before the closing bracket; short or malformed names are never misread out of bounds.","every compiler-printed function name","all strings",["qcoro/core/impl/isqprivatesignal.h: getValue"])
p("C33","A signal listener loses, duplicates and reorders no emission","qCoroSignalListener delivers every emission after its creation exactly once and in order, emissions arriving while the consumer is busy are returned by the next ++ (docs). (As implemented this fails when the consumer suspends elsewhere between two ++.)","every emission sequence, every consumer, every schedule","all interleavings of emissions with consumer suspension",["qcoro/core/qcorosignal.h: QCoroSignalQueue, qCoroSignalListener","docs/reference/core/signals.md"])
p("C34","A signal listener ends on timeout, and only then","The listener's generator ends (iterator == end) exactly when one wait exceeds the timeout; it never ends while emissions keep arriving in time, and ending it does not invoke undefined behaviour.","every sequence of emissions and expiries","all schedules",["qcoro/core/qcorosignal.h: QCoroSignalQueue, handleTimeout"])
p("C35","Device reads return available data immediately and otherwise wait for data or close","readAll/read(n)/readLine return at once if the device is null/closed/unreadable or has data, otherwise exactly once after readyRead or close; read(n) returns at most n bytes, no byte is lost or duplicated between consecutive reads.","every device state, every sequence of arrivals, every n","all arrival orders",["qcoro/core/qcoroiodevice.cpp: readAll, read, readLine","qcoro/core/qcoroiodevice.h"])
p("C36","The wait helpers signal exactly once","Of several racing signals (readyRead/aboutToClose/stateChanged/error/finished/bytesWritten) the wait helper reports exactly the first one, exactly once.","every sequence of device signals","all interleavings",["qcoro/core/qcoroiodevice_p.h/.cpp: WaitSignalHelper","qcoro/network/*.cpp helpers"])
p("C37","write() reports the number of bytes it wrote","co_await write(data) completes once the device has confirmed all bytes it accepted, and returns that number; it ends if the device closes.","every device behaviour (buffering, confirmation sizes)","all confirmation schedules",["qcoro/core/qcoroiodevice.cpp: QCoroIODevice::write"])
p("C38","waitForReadyRead tells whether data is ready","waitForReadyRead returns true iff readyRead was emitted in time, false on close or timeout. (As implemented it returns true on close.)","every device and schedule","all schedules",["qcoro/core/qcoroiodevice.cpp: waitForReadyRead, waitForReadyReadImpl","qcoro/network/qcoroabstractsocket.cpp","qcoro/network/qcoronetworkreply.cpp"])
p("C39","waitForBytesWritten contract","Returns the number of bytes of the next bytesWritten emission; 0 immediately if nothing is to be written; nullopt if not writable or on timeout.","every device and schedule","all schedules",["qcoro/core/qcoroiodevice.cpp: waitForBytesWrittenImpl"])
p("C40","co_await on a QIODevice completes exactly once","Awaiting a QIODevice directly returns the available data, and resumes exactly once from the event loop after readyRead/aboutToClose, never synchronously within the emission, however many emissions occur.","every emission schedule","all schedules",["qcoro/core/qcoroiodevice.cpp: ReadOperation","qcoro/core/qcoroiodevice.h"])
p("C41","QProcess waits decide correctly from the process state","waitForStarted: already running -> true, not starting -> false, else started within the timeout; waitForFinished: not running -> false, else finished within the timeout; start() = start then waitForStarted.","every process state and event schedule","all schedules, including failure to start",["qcoro/core/qcoroprocess.cpp"])
p("C42","QThread waits decide correctly and miss no state change","waitForStarted/waitForFinished return what the thread does within the timeout, for every interleaving of the thread's progress with the check and the subscription.","every interleaving of two threads","interleavings cannot be sampled exhaustively",["qcoro/core/qcorothread.cpp: waitForStarted, waitForFinished"])
p("C43","moveToThread continues on the target thread","After co_await QCoro::moveToThread(t) the coroutine continues exactly once and on t, also if t is started later.","every thread-start schedule","all interleavings",["qcoro/core/qcorothread.cpp: ThreadContext, ContextHelper"])
p("C44","QAbstractSocket waits decide correctly","waitForConnected/waitForDisconnected/connectToHost return immediately when already in (or unable to reach) the state and otherwise report whether it is reached in time.","every socket state and schedule","all schedules",["qcoro/network/qcoroabstractsocket.cpp"])
p("C45","QLocalSocket waits decide correctly","waitForConnected reports connected=true / error or disconnect=false, and waitForDisconnected likewise.","every socket state and schedule","all schedules",["qcoro/network/qcorolocalsocket.cpp"])
p("C46","QNetworkReply waits complete exactly once and report completion","co_await reply / waitForFinished continues immediately if finished, and otherwise exactly once when it finishes or times out.","every reply schedule","all schedules",["qcoro/network/qcoronetworkreply.cpp"])
p("C47","QTcpServer::waitForNewConnection","Returns null at once if not listening, a pending connection at once if any, otherwise the next connection or null on timeout; connections come out in arrival order and none is lost.","every arrival schedule","all schedules",["qcoro/network/qcorotcpserver.cpp"])
p("C48","co_await QFuture yields the future's result once it is finished","Resumes exactly once, only after the future finished (or was canceled), and returns/rethrows its result; does not suspend if finished already.","every future history","all histories incl. cancellation",["qcoro/core/qcorofuture.h"])
p("C49","co_await QTimer resumes at the first timeout","Suspends iff the timer is non-null and active, and resumes exactly once at its first timeout; later timeouts do not resume again; waitForTimeout likewise.","every sequence of timeouts","all schedules",["qcoro/core/qcorotimer.cpp"])
p("C50","sleepFor/sleepUntil sleep at least the requested time","The coroutine continues not before the requested duration/time point. (As implemented: sub-millisecond remainders are truncated, and sleepUntil mixes clock epochs.)","every duration and time point, every clock","all values",["qcoro/core/qcorotimer.h: sleepFor, sleepUntil"])
p("C51","co_await on D-Bus pending calls resumes exactly once with the reply","QDBusPendingCall/QDBusPendingReply awaits continue immediately if finished and otherwise exactly once when the reply arrives; the watcher outlives the resume.","every reply schedule","all schedules",["qcoro/dbus/qcorodbuspendingcall.cpp","qcoro/dbus/qcorodbuspendingreply.h"])
p("C52","WebSocket open and ping","open(): true at once if connected, otherwise true iff connected within the timeout; ping(): returns the elapsed time of its pong or nullopt on timeout.","every socket schedule","all schedules",["qcoro/websockets/qcorowebsocket.cpp: open, ping"])
p("C53","WebSocket message generators deliver messages in order and end on disconnect","textMessages()/binaryMessages()/… deliver every message received after iteration began, in order, once, and end when the socket disconnects or a wait times out.","every message schedule","all schedules",["qcoro/websockets/qcorowebsocket.cpp: WebSocketSignalWatcher, watcherGenerator"])
p("C54","QWebSocketServer::nextPendingConnection","Returns at once when a connection is pending or the server does not listen; otherwise resumes exactly once on a new connection, close or timeout, and repeated waits get the connections in order.","every schedule and number of repeated waits","all schedules",["qcoro/websockets/qcorowebsocketserver.cpp"])
p("C55","QmlTask wraps a Task faithfully","then(f) calls the JS callback exactly once with the result; await() sets the value of the listener if it is still alive; copying a QmlTask is safe; misuse (null task, non-callable) is diagnosed without undefined behaviour.","every object history and schedule","all histories of copies",["qcoro/qml/qcoroqmltask.cpp"])
p("C56","ImageProvider responses finish exactly once","Each requested image response emits finished exactly once after the coroutine produced the image, whatever the schedule, including cancellation and failure.","every schedule, early deletion and exception","all schedules",["qcoro/quick/qcoroimageprovider.cpp"])
p("C57","The reference count is safe under concurrent drops","Concurrent ref/deref of one coroutine's reference count from any number of threads destroys the frame exactly once, by exactly one thread, after the last reference is gone.","every interleaving of any number of threads","interleavings cannot be sampled exhaustively",[T+"taskpromisebase.h: mRefCount (std::atomic<uint32_t>), derefCoroutine, refCoroutine"])
p("C58","Awaiting a Task that completes on another thread never loses the wake-up","If one thread co_awaits a Task while another thread completes it, the awaiter continues exactly once for every interleaving. (As implemented this fails: check and registration are not atomic with completion.)","every interleaving of two threads","interleavings",[T+"taskawaiterbase.h",T+"taskfinalsuspend.h"])
p("C59","A negative timeout means wait for ever, any non-negative timeout is armed exactly once","For every timed API: -1 (or below) arms no timer; t >= 0 arms one single-shot timer of t ms, so the wait ends no later than t.","every timeout value","all integer values",["qcoro/waitoperationbase_p.h: startTimeoutTimer","qcoro/core/qcorosignal.h: handleTimeout"])
p("C60","WaitOperation resumes exactly once and reports timed-out truthfully","Of operation completion and timeout exactly one resumes the coroutine, once, from the event loop, and await_resume is false iff it was the timeout.","every order of completion and timeout","all schedules",["qcoro/waitoperationbase_p.h: WaitOperationBase::resume, await_resume"])
p("C61","No lost wake-up: a coroutine stands still only for a reason outside the library","Whenever control is back in the application's event loop, every coroutine whose body has begun has finished, or waits for something outside the library, or awaits an empty Task, or awaits a coroutine that has begun and not finished; following who awaits whom from an unfinished coroutine one always reaches something outside, an empty Task, or a circle of coroutines awaiting each other. So if nothing outside is pending and there is no circle and no empty Task, every coroutine that began has finished.","every program, every number of coroutines, every schedule","all programs and all await graphs",["qcoro/impl/taskawaiterbase.h: await_suspend","qcoro/impl/taskfinalsuspend.h: await_suspend","qcoro/impl/lazytask.h: await_suspend"])
p("C62","Nested waitFor calls return in reverse order","If a call of waitFor is made while another one on the same thread has not returned, the earlier call returns only after the later one has, even if its own task finished long before.","every program, every nesting depth, every schedule","all nestings and all completion orders",["qcoro/impl/waitfor.h: waitFor"])
p("C63","Coroutines of one thread waiting for the same signal are continued in await order, and one emission reaches all of them","Of two coroutines of one thread that wait for the same signal of the same object, if the one whose co_await began later is continued by an emission, the other one has been continued before, once. One emission, once the event loop of a thread has delivered what is posted to it, continues every coroutine of that thread that was waiting when the signal was emitted. Limits, proved: no order between threads, and a wait with a timeout can end by its timeout before an earlier wait.","every number of waiting coroutines, threads, timeouts, emissions and every interleaving of them with the event loops","all interleavings of awaits, emissions and event delivery",["qcoro/core/qcorosignal.h: QCoroSignal::setupConnection, await_suspend, handleTimeout"])
p("C64","The value of a QmlTaskListener","The value property of the listener returned by await(x) is x until its turn (invalid if x is null, of whatever type), and changes exactly when the listener is given the result of the Task, at most once; if the Task fails, never completes, or the listener is not given the result, it keeps the intermediate value.","every history of awaits, completions, re-entrant JavaScript and destructions","all interleavings of bindings, completion and destruction",["qcoro/qml/qcoroqmltask.cpp: QmlTask::await, QmlTaskListener::setValue, QmlTaskListener::value"])
p("C65","A chain of continuations is the composition of its stages","For every chain std::move(task).then(f1).then(f2)...: when the last task has completed, the first one has, and the outcome of the last one is what the stages make of the outcome of the first, in order: a value goes into the next callback (an asynchronous callback's outcome is the stage's outcome), an exception passes every stage without a suitable error callback unchanged and is turned into the error callback's outcome by the first that has one. Once the first task has completed and control is back in the event loop, the whole chain of synchronous callbacks has run.","chains of every length, every callback, every outcome, every history around them","all lengths and combinations of stages, callbacks and histories",["qcoro/impl/taskbase.h: TaskBase::then, TaskBase::thenImpl, TaskBase::handleException"])
p("C66","A coroutine body is executed as the sequential program it is","For every coroutine, and for the coroutine an asynchronous then() callback is: what can be seen of it (what its co_await expressions and waitFor calls produce, its side effects, its return or throw) is at any time what can be seen of an execution of its body as an ordinary sequential program, from its first statement, with the arguments it was called with, each statement executed once and in order, each co_await expression giving the body exactly the result the trace shows. A body that is suspended is at the co_await it suspended in; one that was resumed goes on right after it; one that completed has executed its return or throw and executes nothing any more; while it is inside waitFor it does nothing else.","every body, every interleaving with any number of other coroutines, event loops and nested waitFor calls","all programs and all interleavings; a missed, repeated or misdirected resumption shows only in particular schedules",["qcoro/impl/taskpromisebase.h: TaskPromiseBase::await_transform, TaskPromiseBase::initial_suspend, TaskPromiseBase::final_suspend","qcoro/impl/taskawaiterbase.h: TaskAwaiterBase::await_suspend","qcoro/impl/taskfinalsuspend.h: TaskFinalSuspend::await_suspend","qcoro/impl/waitfor.h: waitFor, runCoroutine"])
p("C67","Converting an awaitable to a Task loses nothing and adds nothing","For everything that can be co_awaited and is passed where a Task is wanted (QCoro::connect(awaitable, context, f), QmlTask(awaitable), both via toTask): the task completes only with what the awaitable produced (the value, or the same exception), exactly when the awaitable has produced it (whenever control is back in the event loop, the one has completed if and only if the other has), and at once if the awaitable is ready. connect(awaitable, context, f) calls f exactly once, with the value produced, if the context object still exists then, and not at all if it is gone.","every awaitable (ready or not, Task or not), every outcome, every schedule","all outcomes and schedules of completion and destruction",["qcoro/impl/waitfor.h: detail::toTask","qcoro/impl/connect.h: connect(T &&future, ...)","qcoro/qml/qcoroqmltask.h: QmlTask::QmlTask(T &&)"])
p("C68","QmlTask made from a Task<T> or Task<> completes with the converted result","The Task<QVariant> which the QmlTask constructors make from a Task<T> (or Task<>) completes only after that task, with the QVariant made from its value, or fails with the same exception; and it has completed whenever the task has completed and control is back in the event loop, although the Task object given to the constructor is destroyed right after it.","every task, value, exception and schedule, any conversion function","all schedules and lifetimes",["qcoro/qml/qcoroqmltask.h: QmlTask::QmlTask(QCoro::Task<T> &&), QmlTask::QmlTask(QCoro::Task<> &&)","qcoro/impl/taskbase.h: TaskBase::then, thenImplRef"])
p("C69","Several coroutines may read from one device at the same time","However many coroutines have reading calls (readAll, read(n), readLine(n), with any timeouts) pending on one device at the same time, and in whatever order the event loop serves them: the bytes they return, in the order in which they return them, followed by what is still in the device, are the bytes that were there at the beginning followed by those that arrived, so no byte is lost, duplicated or reordered; each call returns at most once, for the same reasons as if it were alone (data, nothing to wait for, a signal that ends its wait, its own timeout) and takes its share of what is there when it returns; and no call is left waiting while there is something to read, provided the device announces what arrives. A call may come back empty-handed although it was told of data, if another one took it.","every device, number of calls, kinds of calls, timeouts, data, signals and every order in which the event loop serves the calls","all interleavings of an unbounded number of pending calls",["qcoro/core/qcoroiodevice.cpp: QCoroIODevice::readAll, read, readLine, waitForReadyRead, waitForReadyReadImpl","qcoro/core/qcoroiodevice_p.h: WaitSignalHelper"])
p("C70","What co_return does to its operand","In a coroutine returning Task<T>, 'co_return operand' makes the result from the operand as from an rvalue whenever the operand is not const: co_return of a member, global, captured variable or reference behaves like co_return std::move(...) of it and leaves the moved-from value behind (proved counterexample to 'co_return does not change named objects': a member string is emptied); the operand keeps its value exactly if it is const or if moving does not change it. An operand that the result type cannot be constructed from, or from which the stored variant of result and exception cannot be assigned (explicit, narrowing or ambiguous conversions), and a named object of a move-only type, are rejected by the compiler. An exception thrown while the result is being stored terminates the process instead of reaching the awaiters, and an operand taken for a std::exception_ptr makes the Task fail.","all operand and result types (as relations of constructibility, convertibility and effect), value categories and values","overload resolution must be right for every type a user may co_return",["qcoro/qcorotask.h: TaskPromise::return_value","qcoro/impl/taskpromise.h: TaskPromise::return_value"])
p("C71","What the callbacks of then() and connect() are called with","then() accepts exactly the callables that can be called without arguments or with the task's result; the callback gets the result exactly if it can take it. If the callable can be called in one way only, the new task has the type of that call (the callback's own task type if it returns a task) and then() compiles exactly if that type is void or default constructible. If it can be called both ways it is called with the result but the task has the type of the call without arguments, so it compiles exactly if the one converts to the other. connect() calls functions with the result if they take it and else without arguments, member functions on the context object likewise; it accepts, and then fails to compile, functions that take the context object, callables that cannot be called while const, and member functions of the result type.","all callables (as arbitrary maps from argument types to result types), task types and conversions","the set of callables is unbounded",["qcoro/qcorotask.h: TaskBase::then, cb_invoke_result","qcoro/impl/taskbase.h: then, invokeCb, handleException, thenImpl, thenImplRef","qcoro/impl/connect.h: connect"])
p("C72","A test coroutine stops at the first check that fails","A test coroutine using QCORO_VERIFY, QCORO_VERIFY2, QCORO_COMPARE, QCORO_TEST, QCORO_VERIFY_THROWS_EXCEPTION, QCORO_FAIL and QCORO_SKIP executes its statements in order, evaluating each expression exactly once, up to the first check that does not hold; then it returns and exactly that failure has been reported; it reaches its end exactly if every check held, and then none has. With QCORO_EXPECT_FAIL the next check uses the expectation up: if it fails that is an expected failure, if it holds that is a failure, and the coroutine goes on exactly if the mode is Continue; a second expectation before a check is a failure and ends the coroutine.","all test bodies (any sequence of statements with any effects and outcomes)","must hold for every test body",["qcoro/test/qcorotest.h: QCORO_VERIFY, QCORO_VERIFY2, QCORO_COMPARE, QCORO_TEST, QCORO_FAIL, QCORO_SKIP, QCORO_EXPECT_FAIL, QCORO_VERIFY_THROWS_EXCEPTION"])
p("C73","waitFor when the coroutine completes on another thread","If what waitFor waits for completes on another thread (for instance after co_await moveToThread), waitFor never returns before the result is there and returns that result. It hangs exactly if the completion's quit comes between waitFor's check and the start of its event loop, and the completing thread touches waitFor's destroyed context exactly if waitFor has returned before that thread is through with quitting the loop. If the completion is not interleaved with the waiting thread's check (as on one thread) neither happens.","all interleavings of the steps of the two threads, all results","interleavings",["qcoro/impl/waitfor.h: WaitContext, runCoroutine, waitFor"])
p("C74","Destroying, moving and overwriting a Task is a finite synchronous operation that runs no user code","Destroying a Task object or move-assigning over it, by the main program or by any coroutine at any time, returns after finitely many steps in which nobody else gets to act; afterwards the object is gone, or holds exactly what the source held while the source is empty, and all else that has happened is the destruction of unreferenced finished coroutines and, recursively, of the Tasks they had taken by value. No coroutine is started, resumed, suspended or completed, and no result, awaiter list or other Task object is touched. Move construction transfers the coroutine and changes nothing else; self-move assignment changes nothing.","all programs and schedules, all objects, all performers","chains of ownership and moments are unbounded",[T+"taskbase.h: ~TaskBase, TaskBase(TaskBase&&), operator=(TaskBase&&)",T+"taskpromisebase.h: derefCoroutine, destroyCoroutine"])
p("C75","Pipelines of asynchronous generators: what comes out is what the loop bodies make of what goes in, and chains never deadlock","A coroutine that loops over an AsyncGenerator (begin(), end(), *, ++, as QCORO_FOREACH does), working, co_awaiting anything and co_yielding any values in its loop body, puts out at any time exactly what its body makes of what the generator put out so far, the generator never running ahead of it; it reads every value once, in order; exceptions and the end arrive where the code handles them. Hence a chain of any number of such generators delivers the composition of the bodies applied to the values of the source, all of it once it ends, whatever other coroutines do and however the awaited operations complete. Whoever is suspended in begin()/++ is, at the end of the chain it waits for, waiting for a generator that is executing, awaiting something else, or destroyed; nobody waits for itself.","every program, every number of stages, every loop body with local state, every schedule, every set of other coroutines","compositions of unbounded length on all schedules",["qcoro/qcoroasyncgenerator.h: AsyncGenerator::begin, AsyncGeneratorIterator::operator++, AsyncGeneratorYieldOperation, QCORO_FOREACH"])
p("C76","What co_await awaits, for every operand type","In a Task or LazyTask coroutine co_await of an object of a Qt type uses the awaiter the library registers for the type, whatever the operand's constness and value category, and is rejected exactly if that awaiter cannot be made from it; an object of a type that is awaitable by itself is awaited exactly as the language would await it; nothing else is ever awaited. Deviations, exactly: the concept looks at an lvalue, so a type with only operator co_await() && is rejected, and wants await_ready() to return exactly bool; a type that is both registered and awaitable is rejected as a temporary. In an AsyncGenerator only the language's rules apply (Qt types are rejected), in a Generator nothing can be awaited. connect(awaitable, context, callback) compiles exactly if the type is default constructible and awaitable and the callback takes nothing, or takes the result and the operand is a temporary; a temporary that is its own awaiter is dead when the converted task is resumed.","every operand type (its operators, methods, registration), every constness and value category, every kind of coroutine, every callback shape","all types and overload sets",["qcoro/qcorotask.h: TaskPromiseBase::await_transform, TaskConvertible, convertible_awaitable_return_type_t","qcoro/impl/taskpromisebase.h","qcoro/coroutine.h: Awaitable","qcoro/impl/connect.h: connect(T &&)","qcoro/impl/waitfor.h: toTask","qcoro/qcorogenerator.h: await_transform"])
p("C77","Which wrapper and which awaiter a Qt object gets, for every class hierarchy and set of headers","With the header of the nearest wrapped base class included, qCoro(pointer) and qCoro(object) return that class's wrapper, however far the class is derived and whatever else is included; without it a pointer to a socket or reply is rejected. co_await on a device reads it, on a QTimer waits for the timeout, on a QNetworkReply * waits for the reply to finish. Deviations, exactly: without the header an object (not pointer) of these classes, and a QProcess in either form, is silently wrapped as a mere QIODevice; co_await on a pointer to a class derived from QNetworkReply, on *reply, or on a reply with only the QIODevice header included reads what is there instead of waiting for the end.","every class hierarchy (single inheritance), every class, pointer or object, every set of included headers","all user class hierarchies and include sets",["qcoro/core/qcoroiodevice.h: qCoro, awaiter_type","qcoro/network/qcoronetworkreply.h: qCoro, awaiter_type","qcoro/core/qcorotimer.h: awaiter_type","qcoro/core/qcoroprocess.h: qCoro","qcoro/network/qcoroabstractsocket.h: qCoro","qcoro/network/qcorolocalsocket.h: qCoro"])
p("C78","Several coroutines may await the same QTimer","co_await timer suspends exactly if the timer exists and is running. However many coroutines wait for one timer and whatever each of them does when continued - stop or restart the timer, await it again, run an event loop in which it times out again - they are continued in the order in which they began to wait, each exactly once, by a timeout that came after they began to wait; one timeout continues everybody who waited when it came, and nobody who began to wait while it was being handled. Exception, exactly: if the timer is destroyed, e.g. by one of the coroutines just continued, those not yet reached wait for ever.","every number of awaiting coroutines, every behaviour of each continued coroutine including nested event loops and re-entrant timeouts, every length of history","the coroutines are continued inside the signal emission, so each sees the timer as its predecessors left it; the interleavings are unbounded",["qcoro/core/qcorotimer.cpp: WaitForTimeoutOperation::await_ready, await_suspend"])
p("C79","Several coroutines may wait for connections of one QTcpServer","However many coroutines call waitForNewConnection on one server and in whatever order the event loop serves them: the connections they return, in order, followed by those still pending are exactly those pending at the beginning followed by those that arrived - none is lost, handed out twice or overtaken; every call returns at most once, with a connection at once if one is pending, otherwise the oldest not handed out when it is served after newConnection was emitted, null after its timeout or if the server does not listen; no call stays suspended while an announced connection is pending. Deviations, exactly: a call that is served after another one took the only connection returns null although it did not time out; a call served after the server was destroyed dereferences null.","every number of concurrent calls with any timeouts, every history of arrivals, signals, listening changes and destruction, every order in which the event loop serves the calls","the calls compete for the same queue of connections; interleavings are unbounded",["qcoro/network/qcorotcpserver.cpp: QCoroTcpServer::waitForNewConnection", "qcoro/core/qcorosignal.h: qCoro"])
p("C80","What a call may refer to after it has returned","A wrapper made by qCoro(...), and everything passed by reference to a coroutine of the library (buffers, names, URLs, payloads, durations, pointers to signals, tasks, callbacks, awaitables), may be destroyed as soon as the call has returned its task, without undefined behaviour, except: the wrapper of a write(); the callbacks passed to a then() that returns a LazyTask, and the named task it was called on; a temporary passed to toTask (connect, QmlTask) that is its own awaiter. The error handler then() supplies itself is always dead when a lazy continuation copies it. ImageProvider passes references on to asyncRequestImage that are dead after its first suspension.","every public coroutine and forwarding function, every control flow, every set of objects destroyed in any order at any suspension","every branch, loop count and destruction order",["qcoro/core/qcoroiodevice.cpp", "qcoro/core/qcoroprocess.cpp", "qcoro/network/*.cpp", "qcoro/core/qcorotimer.h: sleepFor, sleepUntil", "qcoro/core/qcorosignal.h: qCoro, qCoroSignalListener", "qcoro/websockets/*.cpp", "qcoro/impl/taskbase.h: then, thenImpl, thenImplRef", "qcoro/impl/waitfor.h: toTask", "qcoro/quick/qcoroimageprovider.cpp"])
p("C81","Pipelines of synchronous generators: what comes out is what the loop bodies make of what goes in","A generator whose body runs a range-for loop over another Generator (begin(), end(), !=, *, ++), working and co_yielding any values in its loop body, puts out at any time exactly what its body makes of what the other generator put out so far; the other one is resumed only when the loop body is through with the previous value; the end of the source and exceptions thrown by it arrive where the code handles them, whether they come from begin() or from ++. Hence a chain of any number of such generators delivers the composition of the loop bodies applied to the values of the source, and all of it once it ends, whatever the main program and other generators do in between (including generators used by the source itself and other generators used by the consumer between two values).","every program, every number of stages, every loop body with local state, every sequence of operations of the main program, every other generator","compositions of unbounded length in all histories",["qcoro/qcorogenerator.h: Generator::begin, Generator::end, GeneratorIterator::operator++, operator*, operator==, GeneratorPromise::yield_value, unhandled_exception, return_void"])
p("C82","A yielded value is the yielded object itself, and its references live as long as that object","In a Generator or AsyncGenerator, `co_yield x` of an lvalue or xvalue of the generator's type (or of a derived one) compiles unless x is const and the type is not, and then `*it` refers to x itself: no copy is made; co_yield of a prvalue or of anything that has to be converted yields a temporary; everything else, and every AsyncGenerator<T&&>, does not compile. `*it` is an lvalue reference. Whatever is read through an iterator or a reference taken from it (`auto &r = *it`) is the object's current value, so the consumer sees later writes of the body and the body sees the consumer's. An iterator refers to the object yielded last (also while the generator is running on) and to nothing after the end; a kept reference keeps referring to its object. Such an access is undefined behaviour if and only if the iterator refers to nothing or the object's lifetime is over: for a temporary from the next resumption on, for a variable of the body after its scope, the end or the destruction of the generator, for anybody else's object when that one ends. While the generator is suspended at the co_yield, `*it` is valid for everything the body owns.","all type arguments and operands; all bodies, consumers, and interleavings of body steps, iterator steps, reads, writes, kept references, outside objects and destruction","a test reads each value once right after ++it, where a copy and an alias are indistinguishable; aliasing and dangling references depend on the whole history of writes, resumptions and scopes, and dangling reads often return the old value",["qcoro/qcorogenerator.h: GeneratorPromise::yield_value, value, GeneratorIterator::operator*", "qcoro/qcoroasyncgenerator.h: AsyncGeneratorPromise::yield_value, value, get_return_object, AsyncGeneratorIterator::operator*"])
p("C83","Several coroutines may await the same QFuture, D-Bus call or QNetworkReply","Any number of coroutines, of any threads, may co_await the same QFuture (or D-Bus call). Each gets exactly one outcome, and only after the future has finished; those that suspended are continued by the event loop of their own thread, in the order in which they suspended; none is forgotten. If none of them takes the result, all get the same value or all throw the same exception. As soon as one has used takeResult(), whoever asks for the result afterwards, even if it has been waiting longer, runs into undefined behaviour, and with Qt 6 whoever starts to wait afterwards waits for ever. Several coroutines may also co_await the same QNetworkReply in its thread: once it has finished all that wait are resumed in order, each with the reply if it still exists at that time and with a null pointer otherwise; deleting it with deleteLater() after it has finished takes it from none of those that waited; if it is destroyed before it finishes none of them ever continues.","any number of coroutines and threads, any interleaving of co_await (await_ready and await_suspend separately), completion, cancellation, event loops, destruction and deleteLater","The order of completion, suspension and event loops in several threads is unbounded; a test sees one schedule.",["qcoro/core/qcorofuture.h: WaitForFinishedOperationBase, WaitForFinishedOperationImplT, TakeResultOperation", "qcoro/dbus/qcorodbuspendingcall.cpp: WaitForFinishedOperation", "qcoro/dbus/qcorodbuspendingreply.h: WaitForFinishedOperation", "qcoro/network/qcoronetworkreply.cpp: WaitForFinishedOperation"])
p("C84","No coroutine is re-entered, and how deep coroutines nest on the native stack","At no time is a coroutine resumed, or a generator advanced, while it is itself in execution: no coroutine is twice on the native stack, and whatever is on it exists (was started and has not been destroyed). So there are never more Task coroutines nested in execution than exist, however many times they awaited or were resumed; the generator bodies nested in execution are exactly the begin() and ++ calls that have not come back; and iterating over an AsyncGenerator needs no stack at all: co_yield, co_await begin() and co_await ++it hand the activation over, so that with an event loop that resumes from the outside there is never more than one activation, however many values are yielded and however many asynchronous generators are chained. A chain of n Tasks each awaiting the previous one, however, completes with all n+1 coroutines nested in each other and is destroyed with all n+1 frames nested in each other.","all programs (bodies are arbitrary transducers) and all interleavings of calls, completions and event loops; all lengths of the chain","Stack depth is a function of unbounded histories; a test runs one history of one length and overflows only for a length nobody tried.",["qcoro/impl/taskfinalsuspend.h: TaskFinalSuspend::await_suspend", "qcoro/impl/taskpromisebase.h: TaskPromiseBase::derefCoroutine", "qcoro/impl/waitfor.h: waitFor", "qcoro/qcorogenerator.h: Generator::begin, GeneratorIterator::operator++", "qcoro/qcoroasyncgenerator.h: AsyncGeneratorYieldOperation::await_suspend, IteratorAwaitableBase::await_suspend"])
p("C85","On which thread a coroutine runs","A coroutine changes thread only in a co_await in which it was suspended. Its body begins on the thread of the call (Task), directly after the call, or on the thread of the coroutine that first awaits it, directly after that co_await (LazyTask). Everything it does itself – awaiting, suspending, running the callback of then()/connect(), finishing – it does on the thread on which it was last made to execute; a co_await that does not suspend does not change the thread. After a co_await of a Task in which it was suspended it continues on the thread on which that Task's coroutine has finished, whatever its own thread was; after a co_await of anything else it continues on the thread that completed the operation. So if nobody awaits a coroutine with another home thread, and operations complete on the thread that awaited them (which signals, timers, replies and devices guarantee), every coroutine does everything on its home thread, for ever. The same holds of asynchronous generators and their consumers: the body begins, and continues after each co_yield, on the thread on which the consumer calls begin() or ++; the consumer continues (with a value, the end or an exception) on the thread on which the generator was last made to execute.","all programs, all schedules in which several threads take turns (every step with the thread that makes it), all histories","Which thread resumes is decided by who completes last, across whole chains of coroutines; tests use one thread or one lucky schedule.",["qcoro/impl/taskfinalsuspend.h: TaskFinalSuspend::await_suspend", "qcoro/impl/taskawaiterbase.h: TaskAwaiterBase::await_suspend", "qcoro/impl/lazytask.h", "qcoro/impl/task.h", "qcoro/qcoroasyncgenerator.h: AsyncGeneratorYieldOperation::await_suspend, IteratorAwaitableBase::await_suspend"])
p("C86","Timeouts and sleeps longer than an int","Timeouts below 2^31 ms (24 days 20 hours) are what they say, with every Qt, for co_await of a signal, for signal listeners and message generators, for every waiting function of the library and for sleepFor; since Qt 6.8 all timeouts are. Before Qt 6.8 a timeout of ms >= 0 milliseconds counts modulo 2^32: if ms mod 2^32 is below 2^31 the wait times out after ms mod 2^32 milliseconds, otherwise it never times out; results are delivered as ever. sleepFor sleeps ms mod 2^32 milliseconds if that is below 2^31 and otherwise does not sleep at all.","all timeouts and durations, all schedules of emissions, deliveries, destruction and time, all waiting functions","No test waits for 25 days; the boundary lies where a 64-bit duration is converted to an int inside Qt.",["qcoro/core/qcorosignal.h: QCoroSignalBase::QCoroSignalBase", "qcoro/core/qcorosignal.h: QCoroSignalBase::handleTimeout", "qcoro/core/qcorotimer.h: sleepFor"])
p("C87","Coroutines that await signals, end to end","In a thread that runs any program of coroutines (calls, co_await, then, connect, waitFor, LazyTask) over any number of objects whose signals are emitted from any thread and which are destroyed at any time: a coroutine suspended in co_await of a signal is continued only because that wait ended and with its outcome, the arguments of the first emission since it began, or nothing if the object did not exist when it began or it still exists and the timeout has elapsed. The coroutine qCoro(obj, signal[, timeout]) finishes with exactly that, and the first co_await of the Task it returns gives exactly that. Once nothing is posted, everybody who awaited the signal before an emission has been continued. When the event loop has nothing to do, every coroutine that has begun has finished, or leads, along who awaits whom, to one that awaits something the world has not done (something that is not a signal; a signal not emitted since, whose timeout is negative or has not elapsed or whose object was destroyed), to an empty Task or into a circle.","all programs of coroutines, all numbers of objects and waits, all interleavings of execution, emission, delivery, timers, destruction and nested event loops","It is about a whole program: any number of coroutines, objects and threads, under every interleaving; a test fixes one program and one schedule.",["qcoro/core/qcorosignal.h: qCoro", "qcoro/core/qcorosignal.h: QCoroSignal::await_suspend", "qcoro/core/qcorosignal.h: QCoroSignal::setupConnection", "qcoro/impl/taskfinalsuspend.h: TaskFinalSuspend::await_suspend", "qcoro/impl/taskawaiterbase.h: TaskAwaiterBase::await_suspend"])
# Exact statements: where the code deviates from what its documentation suggests, the deviation is part of the statement.
R = {
"C45": ("QLocalSocket waits decide correctly",
 "waitForConnected returns true at once if the socket is connected. Otherwise it returns once: the verdict of the first decisive signal after the wait began (connected: true; a change of state to unconnected, which an error that ends the attempt comes with: false; an error signal alone decides nothing), as soon as the event loop delivers it, or false when the timeout has passed; it keeps waiting exactly while there is neither. waitForDisconnected returns false at once if the socket is unconnected and otherwise tells whether disconnected was emitted in time. connectToServer connects, in whatever state the socket was, and then does as waitForConnected. Waiting changes nothing of the socket; all three dereference a null socket."),
"C72": ("What a test coroutine does and what it reports, for every body",
 "A test coroutine made of QCORO_VERIFY, QCORO_VERIFY2, QCORO_COMPARE, QCORO_TEST, QCORO_VERIFY_THROWS_EXCEPTION, QCORO_FAIL, QCORO_SKIP, QCORO_EXPECT_FAIL and other statements executes its statements in order, evaluating each expression exactly once, until one of them ends it. Without expected failures: the first check that does not hold (or QCORO_FAIL, QCORO_SKIP) ends it, and exactly that one failure (skip) has been reported; if it reaches its end, or an exception leaves it, nothing has. An expected failure is used up by the next check: a failing one is an expected failure, a holding one a failure, and the coroutine goes on exactly if the mode is Continue; a second expectation before a check is a failure and ends the coroutine. QCORO_FAIL and a QCORO_VERIFY_THROWS_EXCEPTION that does not hold end the coroutine whatever the mode; one that holds does not use the expectation up."),
"C02": ("A coroutine frame is freed exactly when it is finished and unreferenced",
 "In every reachable state the frame of a coroutine has been destroyed if and only if its body has completed, it is not in the middle of resuming its awaiters and no Task object refers to it; it is destroyed at most once, and at any time at most one Task object refers to it. Consequence and only leak: a LazyTask that is dropped before ever being awaited never completes, so it is never destroyed."),
"C05": ("co_await delivers exactly the value the coroutine co_returned, moved out once per awaiter",
 "A coroutine completes at most once, with what its body returned or threw. The first co_await of it delivers exactly that value, the k-th one the value left behind by k-1 moves of it (which is the same value if moving does not change the source); before completion nothing is delivered; what is delivered is what the awaiting body receives. (The claim 'every awaiter gets the returned value' is false: proved counterexample.)"),
"C14": ("What happens when waitFor's nested event loop is quit from outside",
 "waitFor meets undefined behaviour only if its nested event loop was exited by somebody else while its task (or other awaitable) was unfinished; then exactly this happens: waitFor(Task<T>) dereferences an empty result as soon as control is back in it; waitFor(Task<void>) returns early, and when the task completes later the helper coroutine writes into the destroyed context. (The claim that waitFor survives this is false: proved counterexamples.)"),
"C22": ("Generator objects own their coroutine frame",
 "Of every generator ever created exactly one holds: its frame was destroyed, exactly once, by the destructor of the object that owned it; or its owning object was overwritten by a move assignment, and the frame is leaked; or exactly one live object owns it. Undefined behaviour is reachable exactly through the named misuses (begin() on an empty, destroyed or finished generator, use of a stale iterator or dead object, a body that takes its own generator away from the object whose begin() runs it); no frame is destroyed twice or resumed after its destruction through an owning object."),
"C26": ("Abandoning an AsyncGenerator",
 "Of every async generator ever created exactly one holds: destroyed once with its owner, leaked by a move assignment over its owner, or owned by exactly one live object. Destroying it is well defined in every state of the producer, and a destroyed generator neither executes nor delivers anything any more. Exception, exactly: if it was destroyed while suspended in a co_await of its own, then the completion of the awaited operation resumes the destroyed coroutine (undefined behaviour), and no other completion does."),
"C29": ("Waiting for a signal of a destroyed or null object",
 "Awaiting a signal of a null or destroyed object completes at once with nothing: nullopt for the overload with timeout, undefined behaviour (dereferenced empty optional, the only undefined behaviour of signal awaits) for the one without. If the object is destroyed while the wait is pending and nothing was emitted before, the wait never ends, not even at its timeout."),
"C33": ("A signal listener loses, duplicates and reorders no emission; exactly when its use is undefined",
 "As long as no undefined behaviour has occurred: what the consumer obtains is a prefix of what was emitted since the listener was created, in order; what it has not yet obtained is queued; a waiting consumer gets the oldest outstanding emission with the next delivered event, and delivered emissions are returned synchronously by the next ++. Undefined behaviour occurs exactly when an emission is delivered while the consumer is suspended elsewhere, after having waited in begin()/++ at least once and without having destroyed the generator (the documented use is an instance); a consumer that only iterates never meets it."),
"C34": ("A signal listener ends on timeout; exactly when ending it is undefined",
 "The end is reported only to a consumer that asked, and only if the object was already destroyed when it asked or the object exists and the (non-negative) timeout has passed since it asked; with a negative timeout it is never reported for a live object; a wait that lasted for the timeout ends when the event loop next looks at timers. Exceptions, exactly: an object destroyed during the wait with nothing outstanding means the listener never ends; and a consumer that keeps the generator after its timeout and suspends meets undefined behaviour exactly if it had suspended in this listener at least twice and the object still exists."),
"C35": ("Device reads return available data immediately and otherwise wait for data or close",
 "readAll/read(n)/readLine return at once if the device is unreadable/closed or has data (or is an unconnected socket/finished reply), otherwise exactly once: after a signal that ends the wait (readyRead, close, and per device state changes, errors, finished), with the data the device has when the event loop delivers it, or after the timeout with nothing. read(n) returns min(n, available) bytes, readLine at most the first line; no byte is lost, duplicated or reordered between consecutive reads. Exception, exactly: if the device was destroyed between that signal and its delivery (or was null), the null device is dereferenced."),
"C36": ("The wait helpers report the first signal that matters, once",
 "Whatever helper: the waiting coroutine is continued at most once. For the helpers of devices and sockets the result is what the first of the racing signals says (or the timeout). The helper of plain devices and of waitForConnected emits at most once; those of sockets at most twice (twice is reachable, the second emission is ignored). Which `ready` signals the helpers of sockets and of replies emit is given exactly, in order: a state change does not drop the readyRead connection and vice versa (sockets); readyRead, bytesWritten and aboutToClose of a reply count when emitted, errorOccurred and finished (and whatever is emitted on another thread) when the event loop delivers them, and the first report decides. Consequence (exception): an error can be overtaken by a later readyRead (proved)."),
"C37": ("What write() reports",
 "co_await write(data) suspends while fewer bytes have been reported written than the device accepted and the device can report more; each wait adds the amount of one bytesWritten emission (0: the device closes); it returns that total as soon as it covers the accepted bytes or the device cannot write any more, exactly once; a device that confirms the accepted bytes in positive portions, one per wait, gives exactly the accepted number; nothing accepted gives 0 at once. Deviations, exactly: if the device has nothing left to write although fewer bytes were reported (emissions that came before the previous one was delivered are not counted) the loop never suspends again (livelock); if the device or the wrapper is destroyed between two waits it is dereferenced; bytes of earlier writes are counted too."),
"C38": ("What waitForReadyRead tells",
 "waitForReadyRead returns at once: false if not readable, true if data is available or if it is a socket without connection or a finished reply; otherwise true exactly if a signal that ends the wait (readyRead, but also close, and per device state change, error, finished) is emitted and delivered in time, false on timeout, exactly once. While nothing but readyRead ends the wait, true means readyRead. (The claim 'true iff readyRead' is false: closing reports true, proved.)"),
"C40": ("co_await on a QIODevice completes exactly once",
 "Awaiting a QIODevice returns the available data at once if there is any or the device is closed; otherwise it is resumed exactly once, by the first run of the event loop after the first readyRead/aboutToClose of the live device, with the data then available, never within the emission. Exceptions, exactly: a null device, and one destroyed between that signal and the resumption, are dereferenced; one destroyed before that signal never resumes the coroutine."),
"C41": ("QProcess waits decide from the process state",
 "waitForStarted: already running -> true, not running -> false, starting -> true exactly if started is emitted and delivered within the timeout, false at the timeout; waitForFinished: not running -> false, else the same with finished; start() = start then waitForStarted; each returns once. Consequences: a process that fails to start does not end the wait (with no timeout it waits for ever), a process destroyed meanwhile never ends it, a null process is dereferenced."),
"C42": ("QThread waits for every interleaving of the thread with check and subscription",
 "waitForStarted/waitForFinished: if the thread makes no step between the checks and the subscription, waitForStarted answers at once true if running and false if finished, waitForFinished true if finished and false if not started, and otherwise they report whether started/finished comes in time. For every number of steps the thread makes in the two windows of the code (between the checks, and between check and subscription) the result is exactly that of the state at the first check, then of the state at the second check, then of the signals emitted after the subscription; in particular a start or end inside a window is lost (the wait hangs or times out with false) and a thread that starts and ends between the two checks gives a wrong answer."),
"C43": ("moveToThread continues on the target thread",
 "After co_await QCoro::moveToThread(t) the coroutine continues at most once and only on t. It continues exactly if: t was running or finished and t's event loop later runs while t runs; or t had not been started, is started after the subscription, then the home thread's event loop runs, and then t's event loop while t runs. Consequences: a finished thread that is not restarted, and a start between check and subscription, never continue it."),
"C44": ("QAbstractSocket waits",
 "waitForConnected returns true at once if connected, waitForDisconnected false at once if unconnected; otherwise true exactly if connected (disconnected) is emitted and delivered within the timeout, false at the timeout, once; connectToHost connects and waits. Consequences: a refused connection does not end the wait (without timeout it waits for ever), a socket destroyed meanwhile never ends it."),
"C46": ("QNetworkReply waits complete exactly once",
 "co_await reply continues at once if there is no reply or it has finished; otherwise exactly once, by the first run of the event loop after its first finished, with the reply (nullptr if destroyed in between). waitForFinished: true at once if finished, else whether finished comes in time. Exceptions, exactly: a reply destroyed before it finished never continues the await; one of another thread that finishes between check and subscription is missed for ever."),
"C47": ("QTcpServer::waitForNewConnection",
 "Returns null at once if not listening, the oldest pending connection at once if any; otherwise exactly once: when newConnection is delivered the oldest pending connection of that moment (taken from the queue), or null after the timeout with the queue untouched. Exceptions, exactly: a server destroyed between newConnection and its delivery is dereferenced, one destroyed before any newConnection never ends the wait."),
"C48": ("co_await QFuture yields the future's result once it is finished",
 "Does not suspend if the future is finished or canceled; otherwise resumes exactly once, at the watcher's first finished, when the future has finished, and returns its value or rethrows its exception; no wake-up is lost if it finishes on another thread between check and subscription. takeResult leaves the future without result; void futures never lack one. Exceptions, exactly: a canceled but running future blocks the thread, a future that was canceled and has no result is undefined behaviour."),
"C50": ("sleepFor/sleepUntil",
 "sleepFor(d) continues exactly once, at the first look of the event loop after d truncated to whole milliseconds has passed: never early for durations that are whole milliseconds, less than one millisecond early otherwise (exactly when). sleepUntil(t) sleeps for t minus the steady clock's reading: right for the steady clock, and for any other clock wrong by exactly the difference of the two clocks' readings; a past time point does not suspend."),
"C52": ("WebSocket open and ping",
 "open(): true at once if connected; otherwise decided by the first of connected (true) and error (false), or false at the timeout, once. ping(): nullopt at once if not connected, else the elapsed time carried by the first pong - of whatever ping -, nullopt on disconnect or timeout. Exception, exactly: if what the socket emits synchronously inside open() already decides, the call is deaf: it only returns at the timeout, with false, even if connected."),
"C53": ("WebSocket message generators deliver messages in order and end on disconnect; exactly when their use is undefined",
 "The consumer obtains a prefix of the messages the socket reported after the first begin() and before a disconnect, in order and once; a waiting one is answered with the next report by the next delivered event, a backlog is returned synchronously; the end is told exactly for a disconnect or an elapsed timeout, after which the generator is released. Messages before the first begin() are not delivered, a silently lost socket never ends an untimed wait. Undefined behaviour occurs exactly when a report is delivered to a consumer suspended elsewhere after its first begin() and before the generator is released; a consumer that only iterates never meets it."),
"C54": ("QWebSocketServer::nextPendingConnection",
 "Returns at once with the oldest connection if one is pending, with nullptr if the server does not listen; otherwise once, on a new connection, close or timeout. Connections are returned in arrival order, never invented or returned twice; each one is pending, on its way, returned, rejected by close, or lost. While no call that had to wait has returned yet, of the waiting calls the longest waiting one is handed every new connection and the others nullptr; when its turn comes a call returns the first thing it was handed and all further connections it was handed are lost; a timeout noticed before loses all. Undefined behaviour (use of a destroyed listener) occurs exactly when a connection arrives after a call that had to wait has returned."),
"C55": ("QmlTask wraps a Task",
 "Every continuation attached by then()/await() - before the Task completes, after it, or by the JavaScript function of another continuation while the Task is completing - has exactly one turn, in order of attachment, after the Task completed: nothing is called if the Task failed; the JS function is called, or the listener is set unless it was destroyed before. The first continuation gets the value, later ones the moved-from one. None has a turn before; dropping QmlTask objects changes nothing; misuse of then() (null task, not callable) is diagnosed and does nothing else. Undefined behaviour occurs exactly for then()/await() on a QmlTask of which a copy exists, for await() on a null one, and when it is the turn of a JS function whose engine was destroyed."),
"C56": ("ImageProvider responses finish exactly once",
 "finished is emitted at most once, and, unless a destroyed response is touched, exactly once if the coroutine produced an image (before or after the response was made) and never otherwise; its image is the produced one; cancellation changes nothing. A failing coroutine never finishes the response. A destroyed response is touched exactly if the image is produced after the response was deleted."),
"C58": ("Awaiting a Task that completes on another thread",
 "For every interleaving of any number of awaiting threads with the completing thread, an awaiter that has executed its co_await continues exactly once - unless its registration came after the completing thread had copied the list of awaiters while its check came before completion, in which case it never continues. (The claim that no wake-up is lost is false: proved counterexample.)"),
}
for x in P:
    if x["id"] in R: x["title"], x["statement"] = R[x["id"]]
with open('/verif/properties.jsonl','w') as f:
    for x in P: f.write(json.dumps(x)+"\n")
print(len(P))
