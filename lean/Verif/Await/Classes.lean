import Verif.Await.Generic
/-
The awaiter classes of the library, as instances of the awaiter machine.
-/
namespace QCoro.Aw

/-! ### `co_await device` (QIODevice) -/

/-- Signals of a `QIODevice`. Models Qt (documented behaviour), not code of /repo. -/
inductive IOSig | readyRead | aboutToClose | bytesWritten
deriving DecidableEq, Repr

/-- Observable state of a `QIODevice`.
Models Qt (documented behaviour), not code of /repo; what `qcoro/core/qcoroiodevice.cpp:29-32` asks of it. -/
structure IODev where
  isOpen : Bool := true
  readable : Bool := true
  data : List UInt8 := []     -- bytes available
deriving DecidableEq, Repr

/-- Result of a call through a possibly null pointer. C++ semantics. -/
inductive Res (β : Type) | ok (b : β) | nullDeref
deriving DecidableEq, Repr

/-- Qt's `readAll()`: everything available; nothing if the device cannot be read.
Models Qt (documented behaviour), not code of /repo; called at `qcoro/core/qcoroiodevice.cpp:48`. -/
def IODev.readAll (d : IODev) : List UInt8 × IODev :=
  (if d.isOpen && d.readable then d.data else [], { d with data := if d.isOpen && d.readable then [] else d.data })

/-- `QCoroIODevice::ReadAllOperation`, the awaiter of `co_await device` (`qcoro/core/qcoroiodevice.cpp:15-51`,
`qcoroiodevice.h:204-211`): `await_ready` `:29-32`, `await_suspend` `:34-41`, `finish` `:19-24` (drops both connections,
`QTimer::singleShot(0, resume)` without context), `await_resume` `:43-45` with the callback of `:47-48`. -/
def readOp : Awaiter IOSig IODev (Res (List UInt8)) where
  ready d := match d with | none => true | some d => !d.isOpen || !d.readable || decide (d.data.length > 0)
  trig x := match x with | .readyRead => true | .aboutToClose => true | .bytesWritten => false
  deferred := true
  disc := true
  result _ d := match d with | none => (.nullDeref, none) | some d => (.ok d.readAll.1, some d.readAll.2)

/-! ### `co_await reply` (QNetworkReply) -/

/-- Signals of `QNetworkReply`. Models Qt (documented behaviour), not code of /repo. -/
inductive ReplySig | finished | errorOccurred | readyRead
deriving DecidableEq, Repr

/-- `QCoroNetworkReply::WaitForFinishedOperation` (`qcoro/network/qcoronetworkreply.cpp:40-81`).  The object's state is
`isFinished()`; the result is the reply pointer (`none`: nullptr).  `await_ready` `:65-67`, `await_suspend` `:69-77`
(queued connection whose receiver `dummy` is a member of the awaiter), `await_resume` `:79-81`. -/
def replyOp : Awaiter ReplySig Bool (Option Bool) where
  ready d := match d with | none => true | some f => f
  skip d := d.isNone
  trig x := match x with | .finished => true | _ => false
  deferred := true
  ctx := true
  result _ d := (d, d)

/-! ### `WaitOperationBase` -/

/-- `WaitOperationBase<T>` (`qcoro/waitoperationbase_p.h:17-62`): timer iff `timeout_msecs > -1` (`:29-35`), single shot;
timer slot `:42-46`; `resume` `:50-58`; `await_resume` `:24-26`.  `ready` and `trig` come from the subclass. -/
def waitOp {σ δ : Type} (ready : Option δ → Bool) (trig : σ → Bool) (timeout : Int) : Awaiter σ δ Bool where
  ready := ready
  trig := trig
  deferred := true
  disc := true
  timeout := if timeout > -1 then some timeout.toNat else none
  result timedOut d := (!timedOut, d)

/-- Signals of `QTcpServer`. Models Qt (documented behaviour), not code of /repo. -/
inductive ServerSig | newConnection | acceptError
deriving DecidableEq, Repr

/-- `QCoroTcpServer::WaitForNewConnectionOperation` (`qcoro/network/qcorotcpserver.cpp:12-27`): `await_resume` `:25-27`
overrides that of the base.  The server's state is its queue of pending connections. -/
def connOp (timeout : Int) : Awaiter ServerSig (List Nat) (Res (Option Nat)) where
  ready d := match d with | none => true | some l => !l.isEmpty
  trig x := match x with | .newConnection => true | _ => false
  deferred := true
  disc := true
  timeout := (waitOp (σ := ServerSig) (δ := List Nat) (fun _ => false) (fun _ => false) timeout).timeout
  result timedOut d :=
    if timedOut then (.ok none, d)
    else match d with | none => (.nullDeref, none) | some l => (.ok l.head?, some l.tail)

/-! ### `co_await timer` (QTimer) -/

/-- Signals of `QTimer`. Models Qt (documented behaviour), not code of /repo. -/
inductive TimerSig | timeout
deriving DecidableEq, Repr

/-- `QCoroTimer::WaitForTimeoutOperation` (`qcoro/core/qcorotimer.cpp:13-34`); the timer's state is `isActive()`.
`await_ready` `:19-21`, `await_suspend` `:23-32` (direct: the slot disconnects, then resumes), `await_resume` `:34`. -/
def timerOp : Awaiter TimerSig Bool Unit where
  ready d := match d with | none => true | some active => !active
  skip d := match d with | none => true | some active => !active
  trig _ := true
  deferred := false
  disc := true
  result _ d := ((), d)

/-! ### `co_await future` (QFuture) -/

/-- What is stored in the shared state of a future. Models Qt (documented behaviour), not code of /repo. -/
inductive Stored (ν : Type) | nothing | value (v : ν) | exception (e : Nat)
deriving DecidableEq, Repr

/-- Observable state of a `QFuture<T>`. Models Qt (documented behaviour), not code of /repo. -/
structure Fut (ν : Type) where
  finished : Bool := false
  canceled : Bool := false
  content : Stored ν := .nothing
deriving DecidableEq, Repr

/-- What `QFuture::result()` does. Models Qt (documented behaviour), not code of /repo. -/
inductive FutRes (ν : Type)
  | value (v : ν)
  | throws (e : Nat)     -- rethrows the stored exception
  | blocks               -- blocks the calling thread until the future finishes
  | noResult             -- there is no result to return: undefined behaviour
deriving DecidableEq, Repr

/-- `QFuture::result()` per the Qt documentation.
Models Qt (documented behaviour), not code of /repo; called at `qcoro/core/qcorofuture.h:51-53`. -/
def Fut.result {ν : Type} (f : Fut ν) : FutRes ν :=
  match f.content with
  | .value v => .value v
  | .exception e => .throws e
  | .nothing => if f.finished then .noResult else .blocks

/-- `QFuture::waitForFinished()`: blocks until finished, rethrows a stored exception.
Models Qt (documented behaviour), not code of /repo; called at `qcoro/core/qcorofuture.h:56-66`. -/
def Fut.waitForFinished (f : Fut Unit) : FutRes Unit :=
  match f.content with
  | .exception e => .throws e
  | _ => if f.finished then .value () else .blocks

/-- Signals of `QFutureWatcher`. Models Qt (documented behaviour), not code of /repo. -/
inductive FutSig | finished   -- of the `QFutureWatcher`
deriving DecidableEq, Repr

/-- `QCoroFuture<T>::WaitForFinishedOperation` (`qcoro/core/qcorofuture.h:22-54`): `await_ready` `:30-32`, `await_suspend`
`:34-41` (a `QFutureWatcher`, which emits `finished` once), `await_resume` `:51-53`. -/
def futOp (ν : Type) : Awaiter FutSig (Fut ν) (Option (FutRes ν)) where
  ready d := match d with | none => true | some f => f.finished || f.canceled
  trig _ := true
  deferred := false
  once := true
  result _ d := (d.map Fut.result, d)

/-- … of `QFuture<void>` (`:56-66`). -/
def futVoidOp : Awaiter FutSig (Fut Unit) (Option (FutRes Unit)) where
  ready d := match d with | none => true | some f => f.finished || f.canceled
  trig _ := true
  deferred := false
  once := true
  result _ d := (d.map Fut.waitForFinished, d)

/-- What `QFuture::takeResult()` leaves: no result; a stored exception is rethrown and stays. Models Qt, not code of /repo; called at
`qcoro/core/qcorofuture.h:76-78`. (What `isFinished()` tells afterwards is left open: see `Await/Shared.lean`.) -/
def Fut.take {ν : Type} (f : Fut ν) : Fut ν :=
  match f.content with
  | .exception _ => f
  | _ => { f with content := .nothing }

/-- `QCoroFuture<T>::TakeResultOperation` (`qcoro/core/qcorofuture.h:72-80`): `QFuture::takeResult()` moves the result out of the future. -/
def futTakeOp (ν : Type) : Awaiter FutSig (Fut ν) (Option (FutRes ν)) where
  ready d := match d with | none => true | some f => f.finished || f.canceled
  trig _ := true
  deferred := false
  once := true
  result _ d := (d.map Fut.result, d.map Fut.take)

/-! ### `co_await call` (D-Bus) -/

/-- Observable state of a pending call: its reply, once it is there. Models Qt (documented behaviour), not code of /repo. -/
abbrev Pending (ν : Type) := Option ν

/-- Signals of `QDBusPendingCallWatcher`. Models Qt (documented behaviour), not code of /repo. -/
inductive BusSig | finished   -- of the `QDBusPendingCallWatcher`
deriving DecidableEq, Repr

/-- `QCoroDBusPendingCall::WaitForFinishedOperation` (`qcoro/dbus/qcorodbuspendingcall.cpp:12-32`) and
`QCoroDBusPendingReply::WaitForFinishedOperation` (`qcoro/dbus/qcorodbuspendingreply.h:29-55`): ready if finished; a
`QDBusPendingCallWatcher` whose `finished` (emitted once) resumes; the result is the reply (`none`: not finished, which
trips the `Q_ASSERT`). -/
def busOp (ν : Type) : Awaiter BusSig (Pending ν) (Option ν) where
  ready d := match d with | none => true | some c => c.isSome
  trig _ := true
  deferred := false
  once := true
  result _ d := (d.join, d)

theorem wf_readOp : WF readOp := .inl rfl
theorem wf_replyOp : WF replyOp := .inr ⟨.inr rfl, rfl⟩
theorem wf_waitOp {σ δ : Type} (r : Option δ → Bool) (g : σ → Bool) (t : Int) : WF (waitOp r g t) := .inl rfl
theorem wf_connOp (t : Int) : WF (connOp t) := .inl rfl
theorem wf_timerOp : WF timerOp := .inl rfl
theorem wf_futOp (ν : Type) : WF (futOp ν) := .inr ⟨.inl rfl, rfl⟩
theorem wf_futVoidOp : WF futVoidOp := .inr ⟨.inl rfl, rfl⟩
theorem wf_futTakeOp (ν : Type) : WF (futTakeOp ν) := .inr ⟨.inl rfl, rfl⟩
theorem wf_busOp (ν : Type) : WF (busOp ν) := .inr ⟨.inl rfl, rfl⟩

end QCoro.Aw
