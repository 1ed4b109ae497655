import Verif.Wait.One
/-
The common shape of the `waitFor…` functions of `QCoroIODevice`, `QCoroAbstractSocket`, `QCoroLocalSocket`,
`QCoroNetworkReply`, `QCoroProcess`, `QCoroTcpServer`, …: subscribe to some signals of a device, directly or through a
helper object (`qcoro/core/qcoroiodevice_p.h`), suspend in `co_await qCoro(object, signal, timeout)` (modelled by
`QCoro.Sig`), compute the result when continued.

One call is modelled; the device does anything at any time (`Op`).
Simplification: calls posted to the helper and results posted to the waiting coroutine sit in two FIFO queues that the
event loop may serve in any relative order (Qt uses one queue): this allows more schedules than Qt has.
-/
namespace QCoro.Wait

/-- One `connect(device, signal, helper, handler)`: `react s` is the argument of the `ready` signal that the handler emits
for the device signal `s` (`none`: a different signal, or the handler ignores it); `disc`: the connections the
handler drops before it emits.
See `qcoro/core/qcoroiodevice_p.cpp:9-19` and its relatives in `qcoro/network/*.cpp`, `qcoro/websockets/qcorowebsocket.cpp`. -/
structure Conn (σ ρ : Type) where
  react : σ → Option ρ
  queued : Bool := false
  disc : List Nat := []

/-- What is waited for.  `own`: `co_await qCoro(device, signal, timeout)` on the device itself, no helper object.
`WaitSignalHelper` (`qcoro/core/qcoroiodevice_p.h:12-36`) and its subclasses. -/
structure Helper (σ ρ : Type) where
  conns : List (Conn σ ρ)
  own : Bool := false

/-- What the caller gets: a value, or the call dereferences a null device (undefined behaviour).
C++ semantics of dereferencing the `QPointer mDevice`, e.g. `qcoro/core/qcoroiodevice.cpp:63`. -/
inductive Res (β : Type) | ok (b : β) | nullDeref
deriving DecidableEq, Repr

/-- The code after the wait: from the result of the wait and the device (`none`: destroyed) to the returned value and
the device as the function leaves it. E.g. `qcoro/core/qcoroiodevice.cpp:112-113`. -/
abbrev Cont (ρ δ β : Type) := Option ρ → Option δ → Res β × Option δ

/-- One suspended call, e.g. `qcoro/core/qcoroiodevice.cpp:132-140`; the inner await is `qcoro/core/qcorosignal.h:353-357`. -/
structure State (σ ρ δ β : Type) where
  live : Nat → Bool := fun _ => true   -- connections not disconnected
  hq : List (Nat × ρ) := []            -- posted handler calls
  sg : Sig.State ρ
  dev : Option δ
  out : Option (Res β) := none         -- what the call returned

/-- Choices of the environment. Models the environment (application, event loop, operating system) rather than code of /repo. -/
inductive Op (σ δ : Type)
  | sig (s : σ) (cross : Bool)  -- the device emits a signal (cross: on another thread than the helper's)
  | dev (d : δ)                 -- the state of the device changes
  | gone                        -- the device is destroyed
  | handler                     -- the event loop delivers the next posted handler call
  | deliver                     -- the event loop delivers the next posted result to the waiting coroutine
  | time (ms : Nat)
  | fire                        -- the event loop notices that the timeout timer is due
deriving DecidableEq

variable {σ ρ δ β : Type}

/-- The coroutine got its answer: it runs to its end (`co_return`), the helper is destroyed.
E.g. `qcoro/core/qcoroiodevice.cpp:134`, then `:112-113`. -/
def State.settle (k : Cont ρ δ β) (s : State σ ρ δ β) : State σ ρ δ β :=
  match Sig.answer s.sg.log with
  | none => s
  | some (r, _) => { s with out := some (k r s.dev).1, dev := (k r s.dev).2 }

/-- `emitReady`: drop connections, then emit `ready(r)` (`qcoro/core/qcoroiodevice_p.h:23-32`). -/
def State.ready (s : State σ ρ δ β) (c : Conn σ ρ) (r : ρ) : State σ ρ δ β :=
  { s with live := fun j => s.live j && !(c.disc.contains j), sg := Sig.step s.sg (.emit 0 r) }

/-- Qt: activation of connection number `i` by signal `x`.
Models Qt (documented behaviour), not code of /repo; the handlers are those of `qcoro/core/qcoroiodevice_p.cpp:9-19`. -/
def State.activate (h : Helper σ ρ) (x : σ) (cross : Bool) (s : State σ ρ δ β) (ci : Conn σ ρ × Nat) : State σ ρ δ β :=
  match ci.1.react x with
  | none => s
  | some r =>
    if s.live ci.2 then
      if (ci.1.queued || cross) && !h.own then { s with hq := s.hq ++ [(ci.2, r)] } else s.ready ci.1 r
    else s

/-- Qt's event loop around the calls; the code of /repo is in the functions it calls (`qcoro/core/qcoroiodevice_p.h:24-32`, `qcoro/core/qcorosignal.h`). -/
def step (h : Helper σ ρ) (k : Cont ρ δ β) (s : State σ ρ δ β) (op : Op σ δ) : State σ ρ δ β :=
  if s.out.isSome then s else
  match op with
  | .sig x cross => if s.dev.isSome then h.conns.zipIdx.foldl (State.activate h x cross) s else s
  | .dev d => if s.dev.isSome then { s with dev := some d } else s
  | .gone => { s with dev := none, sg := if h.own then Sig.step s.sg .destroy else s.sg }
  | .handler =>
    match s.hq with
    | [] => s
    | (i, r) :: q =>
      match h.conns[i]? with
      | none => { s with hq := q }
      | some c => ({ s with hq := q } : State σ ρ δ β).ready c r
  | .deliver => ({ s with sg := Sig.step s.sg (.process 0) } : State σ ρ δ β).settle k
  | .time d => { s with sg := Sig.step s.sg (.time d) }
  | .fire => ({ s with sg := Sig.step s.sg (.fire 0) } : State σ ρ δ β).settle k

/-- The call suspended in `co_await qCoro(…, timeout)`, with the device in state `d`.
E.g. `qcoro/core/qcoroiodevice.cpp:133-134`. -/
def start (t : Int) (d : δ) : State σ ρ δ β := { sg := Sig.one t [], dev := some d }

/-- A suspended call and what happened since. Bookkeeping of the model, no counterpart in /repo. -/
def run (h : Helper σ ρ) (k : Cont ρ δ β) (t : Int) (d : δ) (ops : List (Op σ δ)) : State σ ρ δ β := ops.foldl (step h k) (start t d)

theorem run_snoc (h : Helper σ ρ) (k : Cont ρ δ β) (t : Int) (d : δ) (ops : List (Op σ δ)) (op : Op σ δ) :
    run h k t d (ops ++ [op]) = step h k (run h k t d ops) op := by simp [run]

/-! ### Specification: what happened, read off the environment's choices -/

/-- Signals the device emitted since the call, while it existed. Specification vocabulary, no counterpart in /repo. -/
def heard : List (Op σ δ) → List σ
  | [] => []
  | .gone :: _ => []
  | .sig x _ :: l => x :: heard l
  | _ :: l => heard l

/-- Does the device still exist? Specification vocabulary, no counterpart in /repo. -/
def exists? : List (Op σ δ) → Bool
  | [] => true
  | .gone :: _ => false
  | _ :: l => exists? l

/-- The device now (`none`: destroyed), if it was `d` when the call was made. Specification vocabulary, no counterpart in /repo. -/
def device : Option δ → List (Op σ δ) → Option δ
  | d, [] => d
  | _, .gone :: _ => none
  | _, .dev d' :: l => device (some d') l
  | d, _ :: l => device d l

/-- Milliseconds since the call. Specification vocabulary, no counterpart in /repo. -/
def elapsed : List (Op σ δ) → Nat
  | [] => 0
  | .time d :: l => d + elapsed l
  | _ :: l => elapsed l

/-- The wait is for these signals with these results: the reaction of the first connection that reacts.
Specification vocabulary, no counterpart in /repo. -/
def Helper.hit (h : Helper σ ρ) (x : σ) : Option ρ := h.conns.findSome? (fun c => c.react x)

/-- Signals are handled synchronously. Specification vocabulary, no counterpart in /repo. -/
def Helper.direct (h : Helper σ ρ) : Bool := h.own || h.conns.all (fun c => !c.queued)
/-- No signal of the device is emitted on another thread. Specification vocabulary, no counterpart in /repo. -/
def noCross : List (Op σ δ) → Bool
  | [] => true
  | .sig _ true :: _ => false
  | _ :: l => noCross l

end QCoro.Wait
