import Verif.Util.Basic
/-
Model of `qCoroSignalListener(obj, signal, timeout)` (`qcoro/core/qcorosignal.h:378-400`): the `QCoroSignalQueue`
(`:244-331`), the inner generator coroutine that owns it, one consumer coroutine iterating over the generator
(`qcoro/qcoroasyncgenerator.h`, see also `Verif.AsyncGen`), and the Qt parts involved (posted events, timer, clock).

One listener; emissions may come from any thread, they all travel through the posted-event queue of the listener's
thread because the connection is queued (`:324`).  `α` is what `storeResult` leaves of the arguments.
Simplification: the consumer's own code is a sequence of choices (iterate, suspend elsewhere, drop the generator).
-/
namespace QCoro.Listener

/-- Where the inner generator is suspended (`:387-397`). -/
inductive Gen
  | fresh            -- initial_suspend: `begin()` not called yet
  | waiting (t0 : Nat)   -- in `co_await *signalQueue` since time t0
  | yielded          -- in `co_yield`
  | done             -- after `break`, at final suspend
  | gone             -- frame destroyed
deriving DecidableEq, Repr

/-- C++ undefined behaviour that `qcoro/core/qcorosignal.h:244-400` can run into. -/
inductive Ub
  | spuriousResume   -- the consumer is resumed although it is not waiting for the generator
  | resumeDone       -- a finished coroutine is resumed
deriving DecidableEq, Repr

/-- What is observable: emissions, object destruction, the consumer asking for the next value (`begin()`/`++`), the
consumer obtaining a value (`some`) or the end (`none`), the consumer dropping the generator.
Bookkeeping of the model, no counterpart in /repo. -/
inductive Ev (α : Type)
  | emitted (a : α) (now : Nat)
  | destroyed (now : Nat)
  | next (now : Nat)
  | got (r : Option α) (now : Nat)
  | dropped
deriving DecidableEq, Repr

/-- Members of `QCoroSignalQueue` (`qcoro/core/qcorosignal.h:244-331`), the generator of `:378-400`, its consumer, and Qt's posted events and timer. -/
structure State (α : Type) where
  timeout : Int
  alive : Bool := true
  now : Nat := 0
  conn : Bool := true          -- mConn, connected by the constructor (`:249-252`)
  posted : List α := []        -- queued calls to mDummyReceiver
  queue : List α := []         -- mQueue
  awaiting : Bool := false     -- mAwaitingCoroutine set (never reset)
  gen : Gen := .fresh
  timer : Option Nat := none   -- mTimeoutTimer active, due at
  nconn : Nat := 0             -- connections timeout -> lambda made by handleTimeout so far
  pending : Nat := 0           -- of those, still to be called in the activation in progress
  running : Bool := true       -- the consumer coroutine is running
  cwait : Bool := false        -- the consumer is suspended in `co_await begin()` / `co_await ++it`
  log : List (Ev α) := []
  ub : Option Ub := none

variable {α : Type}

/-- Bookkeeping of the model, no counterpart in /repo. -/
def State.emit (s : State α) (e : Ev α) : State α := { s with log := s.log ++ [e] }

/-- The generator transfers control to `m_consumerCoroutine` (`qcoroasyncgenerator.h:84-86`) with a value or the end. -/
def State.toConsumer (s : State α) (r : Option α) : State α :=
  if s.cwait then ({ s with cwait := false, running := true } : State α).emit (.got r s.now)
  else { s with ub := some .spuriousResume }

/-- `await_resume` = `dequeue` (`qcorosignal.h:291-299`), then the generator body: `break` on nullopt (`:391-393`),
otherwise `co_yield` (`:395`). -/
def State.dequeue (s : State α) : State α :=
  match s.queue with
  | [] => ({ s with gen := .done } : State α).toConsumer none
  | a :: q => ({ s with gen := .yielded, queue := q } : State α).toConsumer (some a)

/-- The generator reaches `co_await *signalQueue` (`:390`): `await_ready` (`:266-268`), `await_suspend` (`:269-272`)
with `handleTimeout` (`:111-120`), which connects once more at every call. -/
def State.awaitQueue (s : State α) : State α :=
  if s.alive = false ∨ s.queue ≠ [] then s.dequeue
  else
    let s1 : State α := if s.timeout > -1 then { s with nconn := s.nconn + 1, timer := some (s.now + s.timeout.toNat) } else s
    { s1 with awaiting := true, gen := .waiting s.now }

/-- `mAwaitingCoroutine.resume()`. Called at `qcoro/core/qcorosignal.h:116` (timeout) and `:321-323` (slot). -/
def State.resumeGen (s : State α) : State α :=
  match s.gen with
  | .fresh => s.awaitQueue
  | .waiting _ => s.dequeue
  | .yielded => s.awaitQueue
  | .done => { s with ub := some .resumeDone }
  | .gone => s

/-- The slot (`:312-324`). -/
def State.slot (s : State α) (a : α) : State α :=
  let s1 : State α := { s with timer := none, queue := s.queue ++ [a] }
  if s1.awaiting then s1.resumeGen else s1

/-- Qt's activation of the remaining `n` timeout connections, in order (`:113-117`); interrupted while the consumer is
running inside one of them. -/
def State.timeouts : Nat → State α → State α
  | 0, s => { s with pending := 0 }
  | n + 1, s =>
    if s.ub.isSome then s
    else if s.running then { s with pending := n + 1 }
    else State.timeouts n (({ s with conn := false } : State α).resumeGen)

/-- Models the environment (application, event loop, operating system) rather than code of /repo. -/
inductive Op (α : Type)
  | emit (a : α)      -- the signal is emitted (on any thread)
  | destroyObj        -- the observed object is destroyed
  | time (d : Nat)    -- time passes
  | deliver           -- the event loop delivers the next posted event
  | fire              -- the event loop notices that the timer is due
  | next              -- the consumer executes `co_await listener.begin()` / `co_await ++it`
  | pause             -- the consumer suspends on something else, or returns
  | wake              -- ... and continues later
  | drop              -- the consumer destroys the generator

/-- Qt and the consumer; the code of /repo is in the functions it calls (`qcoro/core/qcorosignal.h:244-400`). -/
def step (s : State α) (op : Op α) : State α :=
  if s.ub.isSome then s else
  match op with
  | .emit a =>
    if s.alive then
      let s1 := s.emit (.emitted a s.now)
      if s1.conn then { s1 with posted := s1.posted ++ [a] } else s1
    else s
  | .destroyObj =>
    -- Qt drops the connections of the sender and those with it as context (`:113`: context mObj)
    if s.alive then ({ s with alive := false, conn := false, nconn := 0, pending := 0 } : State α).emit (.destroyed s.now) else s
  | .time d => { s with now := s.now + d }
  | .deliver =>
    if s.running then s else
    match s.posted with
    | [] => s
    | a :: rest => ({ s with posted := rest } : State α).slot a
  | .fire =>
    if s.running then s else
    match s.timer with
    | none => s
    | some d => if d ≤ s.now then State.timeouts s.nconn { s with timer := none } else s
  | .next =>
    -- precondition of the API: only iterate while the end was not reached
    if s.running ∧ (s.gen = .fresh ∨ s.gen = .yielded) then
      let s1 := ({ s with running := false, cwait := true } : State α).emit (.next s.now)
      let s2 := s1.resumeGen
      if s2.running then s2 else State.timeouts s2.pending s2
    else s
  | .pause => if s.running then State.timeouts s.pending { s with running := false } else s
  | .wake => if s.running = false ∧ s.cwait = false then { s with running := true } else s
  | .drop =>
    -- destroys the frame, with it signalQueue: connection, posted events, timer and its connections
    if s.running ∧ s.gen ≠ .gone then ({ s with gen := .gone, conn := false, posted := [], queue := [], timer := none, nconn := 0, pending := 0, awaiting := false } : State α).emit .dropped
    else s

/-- Bookkeeping of the model, no counterpart in /repo. -/
def exec (timeout : Int) (ops : List (Op α)) : State α := ops.foldl step { timeout := timeout }

theorem exec_snoc (t : Int) (ops : List (Op α)) (op : Op α) : exec t (ops ++ [op]) = step (exec t ops) op := by simp [exec]

end QCoro.Listener
