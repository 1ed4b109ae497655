import Verif.Util.Basic
/-
Awaiter classes that suspend the caller and subscribe to a signal of the awaited object themselves:
`QCoroIODevice::ReadOperation`, `QCoroNetworkReply::WaitForFinishedOperation`,
`QCoroTcpServer::WaitForNewConnectionOperation` (through `WaitOperationBase`), `QCoroTimer::WaitForTimeoutOperation`,
`QCoroFuture::WaitForFinishedOperation`, `QCoroDBusPending{Call,Reply}::WaitForFinishedOperation`.

One machine runs all of them; each class is an instance of `Awaiter` (see `Verif/Await/Classes.lean`).
Modelled: one `co_await` of one object by one coroutine, with an arbitrary environment.
-/
namespace QCoro.Aw

/-- An awaiter class: signals `σ`, state of the awaited object `δ`, result `β` of the `co_await` expression.
The classes are listed in `Verif/Await/Classes.lean`, with their lines. -/
structure Awaiter (σ δ β : Type) where
  /-- `await_ready` (`none`: null pointer) -/
  ready : Option δ → Bool
  /-- `await_suspend` resumes at once instead of subscribing -/
  skip : Option δ → Bool := fun _ => false
  /-- signals `await_suspend` connects to -/
  trig : σ → Bool
  /-- the slot posts the resumption (`QTimer::singleShot(0, …)`, `Qt::QueuedConnection`) instead of resuming directly -/
  deferred : Bool
  /-- the slot disconnects from the object and stops the timeout timer -/
  disc : Bool := false
  /-- the subscription and posted calls belong to an object inside the awaiter and die with it -/
  ctx : Bool := false
  /-- Qt: the sender (a watcher object private to this `co_await`) emits the signal at most once -/
  once : Bool := false
  /-- single-shot timeout timer started by `await_suspend` -/
  timeout : Option Nat := none
  /-- `await_resume` (first argument: the timer fired): result and the object afterwards -/
  result : Bool → Option δ → β × Option δ

/-- What happened to the coroutine. Bookkeeping of the model, no counterpart in /repo. -/
inductive Out (β : Type)
  | got (b : β)   -- resumed at its `co_await`, which returned `b`
  | again         -- resumed although it is not suspended there any more: undefined behaviour
deriving DecidableEq, Repr

/-- One `co_await`: the object, the subscription, the timer (`qcoro/waitoperationbase_p.h:29-62`), posted calls. -/
structure State (δ β : Type) where
  dev : Option δ            -- `none`: destroyed or never there
  conn : Bool := false      -- subscribed
  timer : Option Nat := none  -- running timeout timer: milliseconds left
  timedOut : Bool := false  -- `mTimedOut`
  posted : Nat := 0         -- posted resumptions
  out : List (Out β) := []

/-- Choices of the environment. Models the environment (application, event loop, operating system) rather than code of /repo. -/
inductive Op (σ δ : Type)
  | sig (s : σ)       -- the object emits
  | dev (d : δ)       -- the object's state changes
  | gone              -- the object is destroyed
  | loop              -- the event loop runs the next posted resumption
  | time (ms : Nat)
  | fire              -- the event loop handles the timeout timer, if it is due
deriving DecidableEq

variable {σ δ β : Type}

/-- `coroutine_handle::resume`, up to the end of the full expression with the `co_await` (the awaiter is destroyed).
Simplification: a full expression with a second `co_await` that keeps this awaiter alive is not modelled.
E.g. `qcoro/waitoperationbase_p.h:50-58`, `qcoro/core/qcoroiodevice.cpp:19-24`. -/
def State.resume (a : Awaiter σ δ β) (s : State δ β) : State δ β :=
  match s.out with
  | [] => { s with out := [.got (a.result s.timedOut s.dev).1], dev := (a.result s.timedOut s.dev).2,
                   posted := if a.ctx then 0 else s.posted, conn := s.conn && !a.ctx }
  | o => { s with out := o ++ [.again] }

/-- The slot. E.g. `qcoro/waitoperationbase_p.h:50-58`, `qcoro/core/qcoroiodevice.cpp:19-24`, `qcoro/core/qcorotimer.cpp:25-28`. -/
def State.slot (a : Awaiter σ δ β) (s : State δ β) : State δ β :=
  let s := { s with conn := s.conn && !(a.disc || a.once), timer := if a.disc then none else s.timer }
  if a.deferred then { s with posted := s.posted + 1 } else s.resume a

/-- Qt: signals, timers and the event loop around the awaiter classes. Bookkeeping of the model, no counterpart in /repo. -/
def step (a : Awaiter σ δ β) (s : State δ β) : Op σ δ → State δ β
  | .sig x => if s.conn && s.dev.isSome && a.trig x then s.slot a else s
  | .dev d => { s with dev := s.dev.map fun _ => d }
  | .gone => { s with dev := none, conn := false }
  | .loop => if s.posted = 0 then s else { s with posted := s.posted - 1 }.resume a
  | .time ms => { s with timer := s.timer.map (· - ms) }
  | .fire => if s.timer = some 0 then { s with timer := none, timedOut := true }.slot a else s

/-- The object now (`none`: destroyed), if it was `d` before. Specification vocabulary, no counterpart in /repo. -/
def device (d : Option δ) (ops : List (Op σ δ)) : Option δ :=
  ops.foldl (fun d op => match op with | .gone => none | .dev d' => d.map fun _ => d' | _ => d) d

/-- `co_await` on object `d`.  `gap`: what other threads do to the object between `await_ready` and the subscription
(empty when the object lives in the awaiting thread).
`await_ready`, then `await_suspend` of the awaiter class (C++ semantics of `co_await`). -/
def start (a : Awaiter σ δ β) (d : Option δ) (gap : List (Op σ δ)) : State δ β :=
  if a.ready d then State.resume a { dev := d }
  else if a.skip (device d gap) then State.resume a { dev := device d gap }
  else { dev := device d gap, conn := (device d gap).isSome, timer := a.timeout }

/-- … and what happens after the subscription. Bookkeeping of the model, no counterpart in /repo. -/
def run (a : Awaiter σ δ β) (d : Option δ) (gap ops : List (Op σ δ)) : State δ β := ops.foldl (step a) (start a d gap)

theorem run_snoc (a : Awaiter σ δ β) (d : Option δ) (gap ops : List (Op σ δ)) (op : Op σ δ) :
    run a d gap (ops ++ [op]) = step a (run a d gap ops) op := by simp [run]

/-! ### Specification: read off the environment's choices -/

/-- Milliseconds that passed. Specification vocabulary, no counterpart in /repo. -/
def elapsed : List (Op σ δ) → Nat
  | [] => 0
  | .time d :: l => d + elapsed l
  | _ :: l => elapsed l

/-- With object `d` at the time of the subscription and `pre` since then, `op` is what the awaiter waits for: a signal
of the live object, or its timeout. Specification vocabulary, no counterpart in /repo. -/
def Trigger (a : Awaiter σ δ β) (d : Option δ) (pre : List (Op σ δ)) : Op σ δ → Prop
  | .sig x => a.trig x = true ∧ (device d pre).isSome = true
  | .fire => ∃ t, a.timeout = some t ∧ t ≤ elapsed pre
  | _ => False

/-- Nothing of that happened so far. Specification vocabulary, no counterpart in /repo. -/
def Untriggered (a : Awaiter σ δ β) (d : Option δ) (ops : List (Op σ δ)) : Prop :=
  ∀ p op q, ops = p ++ op :: q → ¬ Trigger a d p op

/-- The wait was triggered by `op` after `pre`, and not before. Specification vocabulary, no counterpart in /repo. -/
def First (a : Awaiter σ δ β) (d : Option δ) (pre : List (Op σ δ)) (op : Op σ δ) : Prop :=
  Untriggered a d pre ∧ Trigger a d pre op

/-- Specification vocabulary, no counterpart in /repo. -/
def isFire : Op σ δ → Bool
  | .fire => true
  | _ => false

end QCoro.Aw
