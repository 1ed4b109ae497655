import Verif.World.Ext
import Verif.Signal.Props
/-!
Coroutines that await signals: the Task layer (`Verif.Task.Model`) and the signal layer (`Verif.Signal.Model`) put together.

One thread runs coroutines (any program over the Task API, with `then`, `connect`, `waitFor`, LazyTasks, …).  Any number of objects, each with one signal, are emitted
from any thread and destroyed at any time.  A `co_await` of something that is not a Task is a `co_await` of a `QCoroSignal` (`qcoro/core/qcorosignal.h:353-375`: the body of
`qCoro(obj, signal[, timeout])` is `co_return co_await QCoroSignal(…)`, a Task coroutine like any other), or of anything else.  No code of its own: each step is a step of one of
the two models, and what the second one resumes is resumed in the first.

Simplifications: the events posted by different objects are delivered in any relative order (Qt has one queue per thread: fewer schedules).  Whether an awaitable is ready is part
of the program in the Task model; here the object decides, and a step of a program that assumes the contrary is not made.
-/
namespace QCoro.World
open QCoro
variable {σ V E α : Type}

/-- One event of the common history. Bookkeeping of the model, no counterpart in /repo. -/
inductive JEv (V E α : Type)
  | task (e : Task.Ev V E)
  | sig (j : Nat) (e : Sig.Ev α)
deriving DecidableEq, Repr

/-- Both layers. `own j w`: the coroutine whose `co_await` is wait `w` on object `j`; `at_ c`: the wait in which `c` was last suspended, `none` for something that is not a signal.
`stop`: undefined behaviour in the signal layer. Bookkeeping of the model, no counterpart in /repo. -/
structure State (σ V E α : Type) where
  T : Task.State σ V E := Task.init
  S : Nat → Sig.State α := fun _ => {}
  own : Nat → Nat → Nat := fun _ _ => 0
  at_ : Nat → Option (Nat × Nat) := fun _ => none
  stop : Bool := false
  hist : List (JEv V E α) := []

/-- What the thread, its event loop and the rest of the world do. `task op aim`: the thread goes on; if that executes a `co_await` of something that is not a Task, then of the signal of
the object given by `aim`, with that timeout. Models the environment (application, event loop, operating system) rather than code of /repo. -/
inductive Op (σ V E α : Type)
  | task (op : Task.Op σ V E) (aim : Option (Nat × Sig.Kind))
  | other (c : Nat) (r : Task.Res V E)      -- something that is not a signal completes
  | emit (j th : Nat) (a : α)
  | process (j : Nat)                       -- the event loop of the thread delivers the next event posted by object j
  | fire (j w : Nat)                        -- … or notices that the timer of wait w on object j is due
  | time (d : Nat)
  | destroy (j : Nat)

/-- The events a step adds to a log. Bookkeeping of the model, no counterpart in /repo. -/
def new {β : Type} (old log : List β) : List β := log.drop old.length

/-- Coroutine `c` suspends in wait `(S j).nw` on object `j`. (`qcoro/core/qcorosignal.h:204-208`) -/
def State.await (s : State σ V E α) (T' : Task.State σ V E) (c j : Nat) (S' : Sig.State α) (evs : List (JEv V E α)) : State σ V E α :=
  { s with T := T', S := upd s.S j S', own := upd s.own j (upd (s.own j) (s.S j).nw c), at_ := upd s.at_ c (some (j, (s.S j).nw))
           stop := S'.ub.isSome, hist := s.hist ++ evs }

/-- The thread goes on: a step of the Task layer; if it executes a `co_await`, the awaitable is constructed and asked (`qcoro/core/qcorosignal.h:123-130`, `:200-208`):
it is ready, with nothing, exactly if the object does not exist. -/
def State.goOn [DecidableEq V] [DecidableEq E] (P : Task.Prog σ V E) (dec : Option α → V) (s : State σ V E α) (op : Task.Op σ V E) (aim : Option (Nat × Sig.Kind)) : State σ V E α :=
  let T' := Task.step P s.T op
  match new s.T.log T'.log, aim with
  | [.extSusp c], some (j, k) =>
    if (s.S j).alive = true then s.await T' c j (Sig.step (s.S j) (.await 0 k)) [.task (.extSusp c), .sig j (.awaited (s.S j).nw 0 k (s.S j).now)]
    else s
  | [.extSusp c, .extRes c' r], some (j, k) =>
    if (s.S j).alive = false ∧ r = .val (dec none) then
      s.await T' c j (Sig.step (s.S j) (.await 0 k))
        [.task (.extSusp c), .sig j (.awaited (s.S j).nw 0 k (s.S j).now), .sig j (.resumed (s.S j).nw 0 none (s.S j).now false), .task (.extRes c' r)]
    else s
  | [.extSusp c], none => { s with T := T', at_ := upd s.at_ c none, hist := s.hist ++ [.task (.extSusp c)] }
  | n, _ => { s with T := T', hist := s.hist ++ n.map .task }

/-- The signal layer makes a step on object `j`; the coroutine it resumes (`mAwaitingCoroutine.resume()`, `qcoro/core/qcorosignal.h:112-115`, `:219-232`) continues with the
result (`:210-212`), encoded by `dec`. -/
def State.wake (P : Task.Prog σ V E) (dec : Option α → V) (s : State σ V E α) (j : Nat) (S' : Sig.State α) : State σ V E α :=
  match new (s.S j).log S'.log with
  | [.resumed w th x now ie] =>
    let T' := Task.step P s.T (.fire (s.own j w) (.val (dec x)))
    { s with T := T', S := upd s.S j S', stop := S'.ub.isSome, hist := s.hist ++ .sig j (.resumed w th x now ie) :: (new s.T.log T'.log).map .task }
  | _ => { s with S := upd s.S j S', stop := S'.ub.isSome }

/-- A step of the signal layer that resumes nobody. Bookkeeping of the model, no counterpart in /repo. -/
def State.quiet (s : State σ V E α) (j : Nat) (S' : Sig.State α) : State σ V E α :=
  { s with S := upd s.S j S', hist := s.hist ++ (new (s.S j).log S'.log).map (.sig j) }

/-- Is it a completion from outside? Bookkeeping of the model, no counterpart in /repo. -/
def isFire : Task.Op σ V E → Bool
  | .fire _ _ => true
  | _ => false

/-- One step. The event loop runs when control is in it, or in an event loop nested in user code. Bookkeeping of the model, no counterpart in /repo. -/
def step [DecidableEq V] [DecidableEq E] (P : Task.Prog σ V E) (dec : Option α → V) (s : State σ V E α) (op : Op σ V E α) : State σ V E α :=
  if s.stop = true ∨ s.T.ub ≠ none then s else
  match op with
  | .task op aim => if isFire op then s else s.goOn P dec op aim
  | .other c r =>
    if s.at_ c = none then { s with T := Task.step P s.T (.fire c r), hist := s.hist ++ (new s.T.log (Task.step P s.T (.fire c r)).log).map .task } else s
  | .emit j th a => s.quiet j (Sig.step (s.S j) (.emit th a))
  | .process j => if s.T.mayAct then s.wake P dec j (Sig.step (s.S j) (.process 0)) else s
  | .fire j w => if s.T.mayAct then s.wake P dec j (Sig.step (s.S j) (.fire w)) else s
  | .time d => { s with S := fun j => Sig.step (s.S j) (.time d) }
  | .destroy j => s.quiet j (Sig.step (s.S j) .destroy)

/-- The world after a history. Bookkeeping of the model, no counterpart in /repo. -/
def exec [DecidableEq V] [DecidableEq E] (P : Task.Prog σ V E) (dec : Option α → V) (ops : List (Op σ V E α)) : State σ V E α := ops.foldl (step P dec) {}

theorem exec_snoc [DecidableEq V] [DecidableEq E] (P : Task.Prog σ V E) (dec : Option α → V) (ops : List (Op σ V E α)) (op : Op σ V E α) :
    exec P dec (ops ++ [op]) = step P dec (exec P dec ops) op := by simp [exec]

end QCoro.World
