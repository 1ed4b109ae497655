import Verif.Util.Basic
/-
Model of `co_await qCoro(obj, &Obj::signal[, timeout])` (`qcoro/core/qcorosignal.h`, classes `QCoroSignalBase` and
`QCoroSignal`), any number of waits on one object, any number of threads.

The part of Qt it relies on is modelled too: signal activation (direct / queued / automatic connections), per-thread
FIFO queues of posted events, removal of the posted events of a destroyed receiver, removal of the connections of a
destroyed sender or context object, single-shot timers and a clock.

Simplifications: a wait is always awaited where it is created, as both `qCoro()` functions do (`:353-375`); moving an
un-awaited `QCoroSignal` is not modelled.  `α` is what `storeResult` leaves of the arguments (see `Verif.Signal.Args`).
-/
namespace QCoro.Sig

/-- Qt connection types (`Qt::ConnectionType`).
Models Qt (documented behaviour), not code of /repo; used by `qcoro/core/qcorosignal.h:233`. -/
inductive Conn | direct | queued | auto
deriving DecidableEq, Repr

/-- Which `qCoro` overload: with timeout (`:353-357`, returns the optional) or without (`:371-375`, dereferences it). -/
inductive Kind | timed (ms : Int) | plain
deriving DecidableEq, Repr

/-- The timeout passed to the constructor: the plain overload passes -1 (`:373`). -/
def Kind.ms : Kind → Int
  | .timed ms => ms
  | .plain => -1

/-- A wait: the `QCoroSignal` object living in the awaiting coroutine, and that coroutine.
Members of `QCoroSignalBase` and `QCoroSignal` (`qcoro/core/qcorosignal.h:105-130`, `:166-239`). -/
structure Wait (α : Type) where
  kind : Kind := .plain
  thread : Nat := 0             -- thread that executed the co_await (owns mDummyReceiver and mTimeoutTimer)
  waiting : Bool := false       -- coroutine suspended here, object alive
  conn : Bool := false          -- mConn is connected
  hasTimer : Bool := false      -- mTimeoutTimer != nullptr
  timer : Option Nat := none    -- active, due at this time
  timerConn : Bool := false     -- connection timeout -> lambda in context mObj
  result : Option α := none     -- mResult

/-- C++ undefined behaviour in `qcoro/core/qcorosignal.h`. -/
inductive Ub
  | derefNullopt (w : Nat)      -- `*result` of an empty optional (`:374`)
deriving DecidableEq, Repr

/-- Observable events.  `resumed w th r`: the coroutine of wait `w` continues on thread `th` with result `r`.
Bookkeeping of the model, no counterpart in /repo. -/
inductive Ev (α : Type)
  | awaited (w th : Nat) (k : Kind) (now : Nat)
  | emitted (th : Nat) (a : α)
  | destroyed                    -- the observed object is destroyed
  | resumed (w th : Nat) (r : Option α) (now : Nat) (inEmit : Bool)  -- inEmit: synchronously within an emission
deriving DecidableEq, Repr

/-- The observed object, the clock, all waits (`qcoro/core/qcorosignal.h:166-239`) and, per thread, Qt's posted events. -/
structure State (α : Type) where
  alive : Bool := true
  now : Nat := 0
  ws : Nat → Wait α := fun _ => {}
  nw : Nat := 0
  posted : Nat → List (Nat × α) := fun _ => []
  log : List (Ev α) := []
  ub : Option Ub := none

variable {α : Type}

/-- Bookkeeping of the model, no counterpart in /repo. -/
def State.emit (s : State α) (e : Ev α) : State α := { s with log := s.log ++ [e] }

/-- `mAwaitingCoroutine.resume()`: `await_resume` (`:210-212`) returns mResult; the awaitable is destroyed at the end of
the co_await expression: `~QCoroSignalBase` (`:105-109`) disconnects, destroying mDummyReceiver discards its posted
events, destroying mTimeoutTimer stops it.  The plain overload then dereferences the optional (`:374`). -/
def State.resume (s : State α) (w th : Nat) (inEmit : Bool) : State α :=
  let x := s.ws w
  let s1 : State α := { s with ws := upd s.ws w { x with waiting := false, conn := false, timer := none, hasTimer := false, timerConn := false }
                               posted := fun t => (s.posted t).filter (fun p => p.1 != w) }
  let s2 := s1.emit (.resumed w th x.result s.now inEmit)
  if x.kind = .plain ∧ x.result.isNone then { s2 with ub := some (.derefNullopt w) } else s2

/-- The slot connected in `setupConnection` (`:219-232`). -/
def State.slot (s : State α) (w : Nat) (a : α) (th : Nat) (inEmit : Bool) : State α :=
  let x := s.ws w
  let x2 := { x with timer := (if x.hasTimer then none else x.timer), conn := false, result := some a }
  let s1 : State α := { s with ws := upd s.ws w x2 }
  if x2.waiting then s1.resume w th inEmit else s1

/-- Connection type used by `setupConnection` (`:247`). -/
def connType : Conn := .queued

/-- Qt: activation of one connection by an emission on thread `th`.
Models Qt (documented behaviour), not code of /repo: `QMetaObject::activate`; the connection is that of `qcoro/core/qcorosignal.h:217-233`. -/
def State.activate (s : State α) (th : Nat) (a : α) (w : Nat) : State α :=
  if (s.ws w).conn then
    let post : State α := { s with posted := upd s.posted (s.ws w).thread (s.posted (s.ws w).thread ++ [(w, a)]) }
    match connType with
    | .direct => s.slot w a th true
    | .queued => post
    | .auto => if th = (s.ws w).thread then s.slot w a th true else post
  else s

/-- Choices of the environment. Models the environment (application, event loop, operating system) rather than code of /repo. -/
inductive Op (α : Type)
  | await (th : Nat) (k : Kind)   -- some coroutine on thread th executes co_await qCoro(obj, signal[, timeout])
  | emit (th : Nat) (a : α)       -- thread th emits the signal
  | process (th : Nat)            -- the event loop of thread th delivers its next posted event
  | time (d : Nat)                -- time passes
  | fire (w : Nat)                -- the event loop notices that the timer of wait w is due
  | destroy                       -- the observed object is destroyed

/-- Lines of `qcoro/core/qcorosignal.h` are cited at each case. -/
def step (s : State α) (op : Op α) : State α :=
  if s.ub.isSome then s else
  match op with
  | .await th k =>
    let w := s.nw
    let s0 : State α := ({ s with nw := w + 1 } : State α).emit (.awaited w th k s.now)
    -- constructor (`:123-130`): a timer iff timeout > -1; await_ready (`:200-202`): object is null
    let x : Wait α := { kind := k, thread := th, waiting := true, hasTimer := decide (k.ms > -1) }
    if s.alive = false then ({ s0 with ws := upd s0.ws w x } : State α).resume w th false
    else
      -- await_suspend (`:204-208`): handleTimeout (`:111-120`), setupConnection (`:215-234`)
      let x1 := if x.hasTimer then { x with timerConn := true, timer := some (s.now + k.ms.toNat) } else x
      { s0 with ws := upd s0.ws w { x1 with conn := true } }
  | .emit th a =>
    if s.alive then (List.range s.nw).foldl (fun s w => s.activate th a w) (s.emit (.emitted th a)) else s
  | .process th =>
    match s.posted th with
    | [] => s
    | (w, a) :: rest => ({ s with posted := upd s.posted th rest } : State α).slot w a th false
  | .time d => { s with now := s.now + d }
  | .fire w =>
    match (s.ws w).timer with
    | none => s
    | some d =>
      if d ≤ s.now then
        let s1 : State α := { s with ws := upd s.ws w { s.ws w with timer := none } }   -- single shot
        if (s.ws w).timerConn then
          -- lambda of handleTimeout (`:112-115`), direct connection: runs on the timer's thread
          ({ s1 with ws := upd s1.ws w { s1.ws w with conn := false } } : State α).resume w (s.ws w).thread false
        else s1
      else s
  | .destroy =>
    if s.alive then
      -- Qt drops all connections of the sender, and those with it as context object
      ({ s with alive := false, ws := fun w => { s.ws w with conn := false, timerConn := false } } : State α).emit .destroyed
    else s

/-- Bookkeeping of the model, no counterpart in /repo. -/
def exec (ops : List (Op α)) : State α := ops.foldl step {}

theorem exec_snoc (ops : List (Op α)) (op : Op α) : exec (ops ++ [op]) = step (exec ops) op := by simp [exec]

end QCoro.Sig
