/-
What the coroutines of the library touch, and when: the control flow of every public coroutine (and of the plain functions that forward
to one), reduced to the order of its uses of the objects it was handed by reference and its suspensions.

Inlining: `co_await f(…)` and `return f(…)` of a library coroutine `f` stand for `f`'s body. A Task starts eagerly
(`qcoro/impl/taskpromisebase.h:22`) and the caller does nothing until it is finished, so the uses of both happen in this one order.
Not in this model: values, results, which branch is taken (every branch is possible), objects owned by the coroutine frame (they
live as long as the coroutine), the wrapped Qt object itself (`QPointer`s and raw pointers to it are the subject of C35–C54), and
`waitFor`, whose own locals are referred to by the coroutine it runs (C12, C61).
-/
namespace QCoro.Lifetime

/-- Objects of the caller a library function holds a reference to. -/
inductive Ref
  | self          -- `this`: the wrapper returned by `qCoro(…)`, mostly a temporary
  | data          -- a buffer, host or server name, URL, request, payload, duration or time point passed by const reference
  | signal        -- the pointer to member passed as `FuncPtr &&`
  | task          -- the task `then()` is called on
  | callback      -- the callback passed to `then()`
  | handler       -- the error callback passed to `then()`, or the one `then()` itself makes (`qcoro/impl/taskbase.h:85`, `95`)
  | awaitable     -- the awaitable passed to `toTask`
  deriving DecidableEq, Repr

/-- What can be observed of a run: a use of a referenced object, or control going back to the caller or event loop. -/
inductive Ev
  | use (r : Ref)
  | suspend
  deriving DecidableEq, Repr

/-- Control flow. -/
inductive Stmt
  | nop
  | use (r : Ref)
  | wait                          -- a `co_await` that may or may not suspend
  | park                          -- an unconditional suspension (`initial_suspend` of lazy coroutines and generators)
  | seq (a b : Stmt)
  | alt (a b : Stmt)              -- a branch, on anything
  | many (a : Stmt)               -- a loop
  deriving Repr

infixr:65 " ;; " => Stmt.seq

/-- The complete runs of a control flow. -/
inductive Stmt.Trace : Stmt → List Ev → Prop
  | nop : Trace .nop []
  | use (r) : Trace (.use r) [.use r]
  | ready : Trace .wait []
  | wait : Trace .wait [.suspend]
  | park : Trace .park [.suspend]
  | seq {a b s t} : Trace a s → Trace b t → Trace (.seq a b) (s ++ t)
  | left {a b s} : Trace a s → Trace (.alt a b) s
  | right {a b s} : Trace b s → Trace (.alt a b) s
  | stop {a} : Trace (.many a) []
  | again {a s t} : Trace a s → Trace (.many a) t → Trace (.many a) (s ++ t)

/-! ### The functions -/

/-- Who implements the two virtual functions of QCoroIODevice (`qcoro/core/qcoroiodevice.h:197-198`); QCoroProcess inherits them. -/
inductive Dev | device | abstractSocket | localSocket | reply
  deriving DecidableEq, Repr

/-- `waitForReadyReadImpl`: `qcoro/core/qcoroiodevice.cpp:132-135`, `qcoro/network/qcoroabstractsocket.cpp:48-56`,
`qcoro/network/qcorolocalsocket.cpp:78-85`, `qcoro/network/qcoronetworkreply.cpp:83-90`. `mDevice` is read once, at the start. -/
def readyReadImpl : Dev → Stmt
  | .device => .use .self ;; .wait
  | _ => .use .self ;; .alt .nop .wait

/-- `waitForBytesWrittenImpl`: `qcoro/core/qcoroiodevice.cpp:137-140`, `qcoro/network/qcoroabstractsocket.cpp:58-66`,
`qcoro/network/qcorolocalsocket.cpp:87-94`, `qcoro/network/qcoronetworkreply.cpp:92-99`. -/
def bytesWrittenImpl : Dev → Stmt
  | .device => .use .self ;; .wait
  | _ => .use .self ;; .alt .nop .wait

/-- `waitForReadyRead(ms)` (`qcoro/core/qcoroiodevice.cpp:104-114`): two checks of `mDevice`, then the virtual call. -/
def waitForReadyRead (d : Dev) : Stmt :=
  .use .self ;; .alt .nop (.use .self ;; .alt .nop (.use .self ;; readyReadImpl d))

/-- `waitForBytesWritten(ms)` (`qcoro/core/qcoroiodevice.cpp:120-130`). -/
def waitForBytesWritten (d : Dev) : Stmt :=
  .use .self ;; .alt .nop (.use .self ;; .alt .nop (.use .self ;; bytesWrittenImpl d))

/-- `readAll`, `read`, `readLine` (`qcoro/core/qcoroiodevice.cpp:57-82`): `mDevice` is copied, then `this->waitForReadyRead`; afterwards
only the copy is used. -/
def reads (d : Dev) : Stmt := .use .self ;; .use .self ;; waitForReadyRead d

/-- `write` (`qcoro/core/qcoroiodevice.cpp:84-98`): `mDevice->write(buffer)` and a loop that calls `this->waitForBytesWritten`. -/
def write (d : Dev) : Stmt :=
  .use .self ;; .use .data ;; .many (.use .self ;; waitForBytesWritten d)

/-- `QCoroProcess::waitForStarted(ms)` (`qcoro/core/qcoroprocess.cpp:24-32`). -/
def waitForStarted : Stmt := .use .self ;; .alt .wait .nop

/-- `QCoroProcess::waitForFinished(ms)` (`qcoro/core/qcoroprocess.cpp:38-46`). -/
def waitForFinished : Stmt := .use .self ;; .alt .nop .wait

/-- Both `start` overloads (`qcoro/core/qcoroprocess.cpp:48-57`): plain functions that start the process and forward. -/
def start : Stmt := .use .self ;; .use .data ;; .use .self ;; waitForStarted

/-- `waitForConnected(ms)` and `waitForDisconnected(ms)` of both sockets (`qcoro/network/qcoroabstractsocket.cpp:72-80`, `86-94`,
`qcoro/network/qcorolocalsocket.cpp:100-108`, `114-121`). -/
def socketWait : Stmt := .use .self ;; .alt .nop .wait

/-- `connectToHost` ×2 and `connectToServer` ×2 (`qcoro/network/qcoroabstractsocket.cpp:96-107`, `qcoro/network/qcorolocalsocket.cpp:123-133`). -/
def connectTo : Stmt := .use .self ;; .use .data ;; .use .self ;; socketWait

/-- `QCoroNetworkReply::waitForFinished` (`qcoro/network/qcoronetworkreply.cpp:101-109`). -/
def replyFinished : Stmt := .use .self ;; .alt .nop .wait

/-- `QCoroTcpServer::waitForNewConnection(ms)` (`qcoro/network/qcorotcpserver.cpp:37-51`): works on a copy of `mServer`. -/
def tcpConnection : Stmt := .use .self ;; .alt .nop .wait

/-- `QCoroThread::waitForStarted`, `waitForFinished` (`qcoro/core/qcorothread.cpp:90-112`): up to three uses of `mThread`. -/
def thread : Stmt := .use .self ;; .alt .nop (.use .self ;; .alt .nop (.use .self ;; .wait))

/-- `QCoroTimer::waitForTimeout` (`qcoro/core/qcorotimer.cpp:39-43`). -/
def timer : Stmt := .use .self ;; .alt .nop (.use .self ;; .wait)

/-- `sleepFor` (`qcoro/core/qcorotimer.h:58-64`): the duration is read before the `co_await`. -/
def sleepFor : Stmt := .use .data ;; .wait

/-- `sleepUntil` (`qcoro/core/qcorotimer.h:67-71`): a plain function; the duration it computes and hands to `sleepFor` by reference is
its own local and gone when it returns: both count as `data`. -/
def sleepUntil : Stmt := .use .data ;; sleepFor

/-- `QCoroFuture::waitForFinished`, `result`, `takeResult` (`qcoro/core/qcorofuture.h:101-131`): the awaiter copies `mFuture`. -/
def future : Stmt := .use .self ;; .wait

/-- `QCoroDBusPendingCall::waitForFinished` (`qcoro/dbus/qcorodbuspendingcall.cpp:38-42`): `mCall` is copied into the watcher. -/
def dbusCall : Stmt := .use .self ;; .wait

/-- `QCoroDBusPendingReply::waitForFinished` (`qcoro/dbus/qcorodbuspendingreply.h:110-117`): returns `mReply` only if it did not wait. -/
def dbusReply : Stmt := .use .self ;; .alt (.use .self ;; .wait) (.use .self)

/-- `QCoroWebSocket::open` ×2 and `ping` (`qcoro/websockets/qcorowebsocket.cpp:148-186`). -/
def webSocket : Stmt := .use .self ;; .alt .nop (.use .self ;; .use .self ;; .use .data ;; .wait)

/-- `binaryFrames`, `binaryMessages`, `textFrames`, `textMessages` (`qcoro/websockets/qcorowebsocket.cpp:188-210`): plain functions that
read `mWebSocket` and call `watcherGenerator` (`119-139`), a generator whose parameters are all by value: it is suspended initially
and then waits and yields any number of times. -/
def webSocketGen : Stmt := .use .self ;; .park ;; .wait ;; .many (.park ;; .wait)

/-- `QCoroWebSocketServer::nextPendingConnection` (`qcoro/websockets/qcorowebsocketserver.cpp:37-51`): copies `mServer`. -/
def webServer : Stmt := .use .self ;; .alt .nop .wait

/-- `qCoro(obj, &signal[, timeout])` (`qcoro/core/qcorosignal.h:352-375`, with `123-130`, `200-208`, `215-218`): the pointer to member may
be kept as a reference (`FuncPtr mFuncPtr`, `161`, when an lvalue is passed), read when constructing and when connecting. -/
def signal : Stmt := .use .signal ;; .alt .nop (.use .signal ;; .wait)

/-- `qCoroSignalListener` (`qcoro/core/qcorosignal.h:377-400`): the queue connects in its constructor (`249-252`), before the inner
generator, which is suspended initially, and never again. -/
def listener : Stmt := .use .signal ;; .use .signal ;; .park ;; .many (.wait ;; .park) ;; .wait

/-- What a `then()` callback returns: something else, a Task or a LazyTask. -/
inductive Result | plain | task | lazyTask
  deriving DecidableEq, Repr

/-- The type of task `then` returns (`qcoro/impl/taskbase.h:135`, `168`: `std::conditional_t<isTask_v<R>, R, TaskImpl<R>>`) suspends
initially if it is a LazyTask (`qcoro/impl/lazytask.h:24`; `qcoro/impl/taskpromisebase.h:22` for Task). -/
def lazyResult (onLazy : Bool) : Result → Bool
  | .plain => onLazy
  | .task => false
  | .lazyTask => true

/-- `thenImpl` / `thenImplRef` (`qcoro/impl/taskbase.h:133-197`). `thenImpl` takes the task by value, i.e. it is moved into the coroutine
frame at the call (`95`, `111`); `thenImplRef` keeps a reference and reads the task's handle at the `co_await` (`55-78`,
`qcoro/impl/lazytask.h:40-65`). Both take the callbacks by reference and copy them in the body (`136-137`, `169-170`), where a lazy
coroutine gets only when it is awaited. -/
def thenImpl (byValue lazy : Bool) : Stmt :=
  (if byValue then .use .task else .nop) ;;
  (if lazy then .park else .nop) ;;
  .use .callback ;; .use .handler ;;
  (if byValue then .nop else .use .task) ;;
  .wait ;; .alt .nop .wait

/-- How `co_await` treats the awaitable `toTask` got. -/
inductive AwaitableKind
  | converted     -- an awaiter is made from it by value: `awaiter_type` (`qcoro/impl/taskpromisebase.h:30-33`), a Task's handle
  | itself        -- it is its own awaiter (`qcoro/impl/taskpromisebase.h:35-43`) and is used again to resume (`await_resume`)
  deriving DecidableEq, Repr

/-- `toTask` (`qcoro/impl/waitfor.h:23-27`): `co_return co_await future` on the reference. -/
def toTask : AwaitableKind → Stmt
  | .converted => .use .awaitable ;; .wait
  | .itself => .use .awaitable ;; .alt .nop (.use .awaitable ;; .wait) ;; .use .awaitable

/-- `ImageProvider::requestImageResponse` (`qcoro/quick/qcoroimageprovider.cpp:23-33`) of a subclass whose `asyncRequestImage` is `b`:
the id and the size are passed on by reference, then the local task gets a continuation (eager: all of it in the call). -/
def image (b : Stmt) : Stmt := b ;; .alt .nop .wait

/-- All the functions. -/
inductive Fn
  | readAll (d : Dev) | read (d : Dev) | readLine (d : Dev) | write (d : Dev)
  | waitForReadyRead (d : Dev) | waitForReadyReadInt (d : Dev)
  | waitForBytesWritten (d : Dev) | waitForBytesWrittenInt (d : Dev)
  | processStarted | processFinished | processStart
  | socketConnected | socketDisconnected | connectToHost
  | localConnected | localDisconnected | connectToServer
  | replyFinished | newConnection | threadStarted | threadFinished | timeout | sleepFor | sleepUntil
  | futureResult | futureTake | dbusCall | dbusReply
  | webSocketOpen | webSocketPing | webSocketMessages | webSocketServer
  | qCoroSignal | qCoroSignalTimeout | signalListener
  | then_ (onTemporary onLazy : Bool) (result : Result) (ownHandler : Bool)
  | toTask (k : AwaitableKind)
  deriving DecidableEq, Repr

/-- Their control flow. The `int` overloads are plain functions that forward (`qcoro/core/qcoroiodevice.cpp:100-102`, `116-118`). Overloads
and functions with the same flow share a definition. `ownHandler` makes no difference to the flow, only to who destroys the handler. -/
def body : Fn → Stmt
  | .readAll d | .read d | .readLine d => reads d
  | .write d => Lifetime.write d
  | .waitForReadyRead d => Lifetime.waitForReadyRead d
  | .waitForReadyReadInt d => .use .self ;; Lifetime.waitForReadyRead d
  | .waitForBytesWritten d => Lifetime.waitForBytesWritten d
  | .waitForBytesWrittenInt d => .use .self ;; Lifetime.waitForBytesWritten d
  | .processStarted => waitForStarted
  | .processFinished => waitForFinished
  | .processStart => start
  | .socketConnected | .socketDisconnected | .localConnected | .localDisconnected => socketWait
  | .connectToHost | .connectToServer => connectTo
  | .replyFinished => Lifetime.replyFinished
  | .newConnection => tcpConnection
  | .threadStarted | .threadFinished => thread
  | .timeout => timer
  | .sleepFor => Lifetime.sleepFor
  | .sleepUntil => Lifetime.sleepUntil
  | .futureResult | .futureTake => future
  | .dbusCall => Lifetime.dbusCall
  | .dbusReply => Lifetime.dbusReply
  | .webSocketOpen | .webSocketPing => webSocket
  | .webSocketMessages => webSocketGen
  | .webSocketServer => webServer
  | .qCoroSignal | .qCoroSignalTimeout => signal
  | .signalListener => listener
  | .then_ onTemporary onLazy result _ => thenImpl onTemporary (lazyResult onLazy result)
  | .toTask k => Lifetime.toTask k

/-! ### Executions with a caller -/

/-- A step of the function, or the caller destroying one of the objects. -/
inductive Act
  | ev (e : Ev)
  | destroy (r : Ref)
  deriving DecidableEq, Repr

/-- The function's own steps. -/
def proj : List Act → List Ev
  | [] => []
  | .ev e :: a => e :: proj a
  | .destroy _ :: a => proj a

/-- The schedule is a run of `s` as far as it goes. -/
def Runs (s : Stmt) (a : List Act) : Prop := ∃ t, s.Trace (proj a ++ t)

/-- The caller destroys nothing before the call has returned to it, i.e. before the function suspended for the first time. -/
def Polite (a : List Act) : Prop := ∀ p r q, a = p ++ .destroy r :: q → .suspend ∈ proj p

/-- Undefined behaviour: an object is used that is dead (`dead`: destroyed before). -/
def ub : List Ref → List Act → Bool
  | _, [] => false
  | dead, .ev (.use r) :: a => decide (r ∈ dead) || ub dead a
  | dead, .ev .suspend :: a => ub dead a
  | dead, .destroy r :: a => ub (r :: dead) a

end QCoro.Lifetime
