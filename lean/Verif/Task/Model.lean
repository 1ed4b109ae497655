/-
Model of the Task / LazyTask coroutine machinery of QCoro:
`qcoro/qcorotask.h`, `qcoro/qcorolazytask.h` and `qcoro/impl/{task,taskbase,taskpromise,taskpromisebase,
taskfinalsuspend,taskawaiterbase,lazytask,waitfor,connect}.h`.

Single thread.  The native call stack is an explicit list of frames, coroutine frames live in `coro`,
`Task` objects in `obj`.  User code (coroutine bodies and callbacks) is an arbitrary transducer
`Prog.next`, so a body may be any (also infinite) program over the API actions `UAct`.
-/
namespace QCoro.Task

/-- `Task` (starts eagerly, `taskpromisebase.h:22`) or `LazyTask` (`lazytask.h:24`). -/
inductive Kind | eager | lazy
deriving DecidableEq, Repr

/-- Outcome of a coroutine: value or exception (`TaskPromise::mValue`, `taskpromise.h:24-48`).
`Task<void>` (`taskpromise.h:70-84`) is the case where the value carries no information. -/
inductive Res (V E : Type) | val (v : V) | exc (e : E)
deriving DecidableEq, Repr

/-- What user code gets back from its last action.
Models what `co_await`, `then`, `waitFor` and `isReady` return to user code (`qcoro/impl/taskbase.h:50-112`, `qcoro/impl/waitfor.h:67-88`). -/
inductive Resp (V E : Type)
  | start (params : List Nat) (v : V)   -- body starts, with its by-value Task parameters and a plain argument
  | unit
  | obj (o : Nat)
  | flag (b : Bool)
  | res (r : Res V E)
deriving DecidableEq, Repr

/-- Callbacks given to `then` (`taskbase.h:83-112`) or `connect` (`connect.h:20`).
`cbTask = some k`: the callback is itself a coroutine returning a Task of kind `k` (`isTask_v<R>`).
`err = none`: the default error handler that rethrows (`taskbase.h:85,95`).
`guard = some q`: `connect`'s `QPointer` check (`connect.h:24,34`). -/
structure ThenCfg (σ : Type) where
  cb : σ
  cbTask : Option Kind
  err : Option σ
  guard : Option Nat

/-- How a continuation was made: by the rvalue overload, with a context object (`connect`), with an error callback,
with a callback that is itself a coroutine.
Which overload was called: `qcoro/impl/taskbase.h:83-112`, `qcoro/impl/connect.h:20-50`. -/
structure ThenInfo where
  rv : Bool
  ctx : Option Nat
  hasErr : Bool
  isCoro : Bool
deriving DecidableEq, Repr

/-- The event data describing a `then`/`connect` call (`qcoro/impl/taskbase.h:83-112`, `qcoro/impl/connect.h:20-50`). -/
def ThenCfg.info {σ : Type} (cfg : ThenCfg σ) (rv : Bool) : ThenInfo :=
  ⟨rv, cfg.guard, cfg.err.isSome, cfg.cbTask.isSome⟩

/-- `then` takes no context object. (`qcoro/impl/taskbase.h:83-112`). -/
def ThenCfg.plain {σ : Type} (cfg : ThenCfg σ) : ThenCfg σ := { cfg with guard := none }

/-- The argument of `waitFor`: a Task object, or an awaitable that is not a Task, which is ready with `r` (`now = some r`: `await_ready` says so, or
`await_suspend` resumes the coroutine before it returns) or completes later (`waitfor.h:93-105`). -/
inductive Arg (V E : Type)
  | task (o : Nat)
  | ext (now : Option (Res V E))

/-- API actions available to user code (`none`-caller actions are those of the main program).
The API is that of `qcoro/impl/taskbase.h:19-112`, `qcoro/impl/lazytask.h:19-65`, `qcoro/impl/waitfor.h:67-105`, `qcoro/impl/connect.h:20-50`. -/
inductive UAct (σ V E : Type)
  | ret (v : V)                                        -- co_return v
  | throw (e : E)                                      -- exception escapes the body
  | call (k : Kind) (s : σ) (v : V) (args : List Nat)  -- call a coroutine; `args` are moved into by-value Task parameters
  | await (o : Nat)                                    -- co_await task object o
  | awaitExt (now : Option (Res V E))                  -- co_await anything that is not a Task (signal, timer, reply, …); `some r`: it is ready, with r
  | drop (o : Nat)                                     -- destroy task object o
  | moveNew (src : Nat)                                -- Task t{std::move(src)}
  | moveAssign (dst src : Nat)                         -- dst = std::move(src)
  | mkNull (k : Kind)                                  -- Task t{}
  | isReady (o : Nat)                                  -- o.isReady()
  | waitFor (o : Arg V E) (isVoid : Bool)              -- QCoro::waitFor(o)
  | thenL (o : Nat) (cfg : ThenCfg σ)                  -- o.then(cb, err)             (lvalue overload)
  | thenR (o : Nat) (cfg : ThenCfg σ)                  -- std::move(o).then(cb, err)  (rvalue overload)
  | connect (o q : Nat) (s : σ)                        -- QCoro::connect(std::move(o), ctx q, s)
  | delCtx (q : Nat)                                   -- destroy the QObject q
  | note (n : Nat)                                     -- any other observable side effect

/-- User program: transition function of bodies and callbacks, which exceptions derive from
`std::exception`, what a moved-from value looks like, and the value-initialised `U{}`.
Stands for the code of the user of the library; `U{}` is `qcoro/impl/taskbase.h:126-131`. -/
structure Prog (σ V E : Type) where
  next : σ → Resp V E → σ × UAct σ V E
  isStd : E → Bool
  mv : V → V
  dflt : V

/-- Program counter of `runCoroutine` (`waitfor.h:45-64`). -/
inductive WPhase | init | waiting | signalled | over
deriving DecidableEq, Repr

/-- Program counter of `thenImpl`/`thenImplRef` (`taskbase.h:135-197`). -/
inductive TPhase (σ V E : Type)
  | init | waiting
  | guard (v : V)
  | cbStart (v : V)
  | cbRun (s : σ)
  | cbCalled
  | cbAwait (tmp : Nat)
  | cbDrop (r : Res V E)
  | errStart (s : σ) (e : E)
  | errRun (s : σ)
  | over

/-- Code of a coroutine: user code or one of the library's own coroutines.
`waitRun` is `runCoroutine` (`qcoro/impl/waitfor.h:45-64`), `thenC` is `thenImpl`/`thenImplRef` (`qcoro/impl/taskbase.h:135-197`). -/
inductive Code (σ V E : Type)
  | user (s : σ)
  | waitRun (w : Nat) (o : Arg V E) (ph : WPhase)
  | thenC (o : Nat) (cfg : ThenCfg σ) (ph : TPhase σ V E)

/-- Actions including those only library coroutines perform.
The library coroutines are `qcoro/impl/waitfor.h:45-64` and `qcoro/impl/taskbase.h:135-197` (with `qcoro/impl/connect.h:23-48`). -/
inductive Act (σ V E : Type)
  | u (a : UAct σ V E)
  | markCb (v : V)                                     -- invoke the then-callback
  | markErr (e : E)                                    -- invoke the error callback
  | ctxAlive (q : Nat) (v : V)                         -- QPointer check; if alive, invoke the callback
  | waitDone (w : Nat) (r : Res V E)                   -- store result/exception, coroutineFinished = true, loop.quit()
  | callTmp (k : Kind) (s : σ) (v : V)                 -- call a coroutine, keep the Task in a temporary
  | awaitTmp (o : Nat)                                 -- co_await a parameter or temporary of the library coroutine
  | dropTmp (o : Nat)                                  -- destroy such a temporary
  | stuck                                              -- impossible (proved unreachable)

/-- Lifecycle of a coroutine frame.
C++ coroutine state: `initial` at `initial_suspend` (`qcoro/impl/lazytask.h:24`), `waitTask`/`waitNull` in `await_suspend` of `qcoro/impl/taskawaiterbase.h:18-30`, `done` at `final_suspend` (`qcoro/impl/taskpromisebase.h:26`). -/
inductive Status
  | unborn | initial | running
  | waitTask (d : Nat) | waitNull | waitExt
  | done
deriving DecidableEq, Repr

/-- A coroutine frame with its promise. `fin` is the vector inside the `TaskFinalSuspend` object
(`taskfinalsuspend.h:16`, lives in the coroutine frame).  Ghost fields: `selfRef` (the initial count of
`mRefCount`, `taskpromisebase.h:18`, not yet given up in `taskfinalsuspend.h:33`), `freed`. -/
structure Coro (σ V E : Type) where
  kind : Kind := .eager
  code : Option (Code σ V E) := none
  inp : Resp V E := .unit
  status : Status := .unborn
  result : Option (Res V E) := none
  awaiters : List Nat := []
  fin : List Nat := []
  rc : Nat := 0
  selfRef : Bool := false
  owned : List Nat := []
  freed : Bool := false

/-- Where a Task object lives: in user code, as the by-value parameter `task_` of `thenImpl` of coroutine `c`
(`taskbase.h:135`), as the temporary of `co_await invokeCb(…)` in coroutine `c` (`taskbase.h:147,159`), or as a
temporary of `waitFor`/`connect` (`waitfor.h:70,79`, `connect.h:23,33`). Only `user` objects can be named by
user code. -/
inductive Owner | user | param (c : Nat) | tmp (c : Nat) | stk
deriving DecidableEq, Repr

/-- A `Task`/`LazyTask` object. `handle` is `mCoroutine` (`qcoro/impl/taskbase.h:19-47`). -/
structure Obj where
  alive : Bool := false
  owner : Owner := .user
  kind : Kind := .eager
  handle : Option Nat := none
deriving Repr

/-- `WaitContext` (`waitfor.h:29-33`) plus the `std::optional<T> result` of `waitFor` (`waitfor.h:78`). -/
structure WCtx (V E : Type) where
  alive : Bool := false
  fin : Option (Res V E) := none
  exit : Bool := false
  isVoid : Bool := false
  caller : Option Nat := none

/-- Native activations, innermost first.
`final`: `qcoro/impl/taskfinalsuspend.h:24-34`; `assign`: `qcoro/impl/taskbase.h:30-40`; `waitA`/`waitB`/`loop`: `qcoro/impl/waitfor.h:67-88`. -/
inductive Frame
  | body (c : Nat)                    -- c's body is being executed (some caller resumed it)
  | final (c : Nat)                   -- inside TaskFinalSuspend::await_suspend of c
  | drops (os : List Nat)             -- destroying Task objects (parameters of a destroyed frame, temporaries)
  | assign (dst src : Nat)            -- TaskBase::operator= after releasing the old coroutine
  | waitA (w tmp : Nat)               -- detail::waitFor, full expression `runCoroutine(…);`
  | waitB (w : Nat)                   -- detail::waitFor, `if (!context.coroutineFinished)`
  | loop (w : Nat)                    -- detail::waitFor, inside loop.exec()
deriving DecidableEq, Repr

/-- Undefined behaviour. The first group can be caused only by the caller violating a precondition.
C++ undefined behaviour in the places named (`qcoro/impl/*.h`). -/
inductive UB
  | badObj         -- using a Task object that does not exist (any more) or an ill-typed operation
  | lazyNull       -- co_await on an empty LazyTask: await_suspend returns a null handle (lazytask.h:47-51)
  | lazyReawait    -- co_await on a LazyTask that is started but not finished resumes it spuriously (lazytask.h:50)
  | waitNoResult   -- waitFor's loop was quit from outside: `*result` of an empty optional (waitfor.h:86)
  | waitCtxDead    -- … and for void the runner later writes to the dead WaitContext (waitfor.h:49-52)
  -- library faults, proved unreachable:
  | uaf            -- access to / resume of a destroyed coroutine frame
  | rcUnderflow
  | badResume      -- resume of a coroutine that is not suspended
  | badDestroy     -- destroy of a coroutine that is not suspended
  | noResult       -- result() of a promise without a result
  | libObj         -- a library temporary/parameter destroyed twice or used after destruction
  | stuck
deriving DecidableEq, Repr

/-- The caller is responsible. (Classification of `qcoro/impl/*.h` faults, no counterpart in /repo.) -/
def UB.misuse : UB → Bool
  | .badObj | .lazyNull | .lazyReawait | .waitNoResult | .waitCtxDead => true
  | _ => false

/-- What a call of `waitFor` waits for: the coroutine a Task refers to (`waitfor.h:93-100`), or another awaitable (`waitfor.h:102-105`). -/
inductive Aim | task (h : Option Nat) | ext
deriving DecidableEq, Repr

/-- Observable events (the trace).
Each event is emitted by the model of the code it names (`qcoro/impl/*.h`); Bookkeeping of the model, no counterpart in /repo. -/
inductive Ev (V E : Type)
  | spawned (c : Nat) (k : Kind)           -- coroutine function called
  | started (c : Nat)                      -- body begins to execute
  | awaitReg (a d : Nat)                   -- a suspends in co_await on d
  | gotReady (a d : Nat) (r : Res V E)     -- a's co_await on d completed without suspending
  | gotWoken (a d : Nat) (r : Res V E)     -- a is resumed by d's completion and gets r
  | hung (a : Nat)                         -- a awaits an empty Task
  | extSusp (a : Nat)                      -- a suspends on something external
  | extRes (a : Nat) (r : Res V E)         -- … which completed with r
  | finished (c : Nat) (r : Res V E)
  | destroyed (c : Nat)
  | thenMade (t : Nat) (h : Option Nat) (i : ThenInfo)  -- then()/connect() on a Task holding h created continuation t
  | cb (t : Nat) (v : V)                   -- continuation t invokes its callback with v
  | err (t : Nat) (e : E)                  -- continuation t invokes its error callback with e
  | cbTask (t d : Nat)                     -- the callback of continuation t is a coroutine: d was created for the call
  | guardDead (t : Nat)                    -- connect: context object gone, callback skipped
  | ctxDel (q : Nat)
  | ready (o : Nat) (h : Option Nat) (b : Bool)  -- isReady() of object o (holding h) returned b
  | waitCall (w r : Nat) (h : Aim)         -- waitFor call w, runner coroutine r, what it waits for
  | loopEnter (w : Nat)
  | waitRet (w : Nat) (r : Res V E)        -- waitFor call w returned / rethrew r
  | extExit (w : Nat)                      -- somebody else quit w's event loop
  | note (a : Option Nat) (n : Nat)
deriving DecidableEq, Repr

/-- State of one thread: coroutine frames, Task objects, `WaitContext`s (`qcoro/impl/waitfor.h:29-33`), context objects of `connect` (`qcoro/impl/connect.h:24,34`), native stack, trace. -/
structure State (σ V E : Type) where
  coro : Nat → Coro σ V E := fun _ => {}
  nc : Nat := 0
  obj : Nat → Obj := fun _ => {}
  no : Nat := 0
  wctx : Nat → WCtx V E := fun _ => {}
  nw : Nat := 0
  qalive : Nat → Bool := fun _ => true
  stack : List Frame := []
  ub : Option UB := none
  log : List (Ev V E) := []

variable {σ V E : Type}

namespace State
variable (s : State σ V E)

/-- Bookkeeping of the model, no counterpart in /repo. -/
def fail (u : UB) : State σ V E := { s with ub := some u }
/-- Bookkeeping of the model, no counterpart in /repo. -/
def emit (e : Ev V E) : State σ V E := { s with log := s.log ++ [e] }
/-- Bookkeeping of the model, no counterpart in /repo. -/
def push (f : Frame) : State σ V E := { s with stack := f :: s.stack }
/-- Bookkeeping of the model, no counterpart in /repo. -/
def pop : State σ V E := { s with stack := s.stack.tail }
/-- Bookkeeping of the model, no counterpart in /repo. -/
def setCoro (c : Nat) (x : Coro σ V E) : State σ V E :=
  { s with coro := fun i => if i = c then x else s.coro i }
/-- Bookkeeping of the model, no counterpart in /repo. -/
def setObj (o : Nat) (x : Obj) : State σ V E :=
  { s with obj := fun i => if i = o then x else s.obj i }
/-- Bookkeeping of the model, no counterpart in /repo. -/
def setW (w : Nat) (x : WCtx V E) : State σ V E :=
  { s with wctx := fun i => if i = w then x else s.wctx i }
/-- Hand the outcome of an action to the code that performed it (`none`: the main program, not tracked).
Bookkeeping of the model, no counterpart in /repo. -/
def reply (who : Option Nat) (r : Resp V E) : State σ V E :=
  match who with
  | none => s
  | some c => s.setCoro c { s.coro c with inp := r }
/-- May this caller name object o?  Library temporaries are invisible to user code.
C++ lifetime and scoping rules; Bookkeeping of the model, no counterpart in /repo. -/
def usable (priv : Bool) (o : Nat) : Bool := (s.obj o).alive && (priv || (s.obj o).owner = .user)
/-- May user code call `waitFor` with this: a Task object, or another awaitable (of which nothing is assumed).
C++ lifetime and scoping rules; Bookkeeping of the model, no counterpart in /repo. -/
def usableArg : Arg V E → Bool
  | .ext _ => true
  | .task o => s.usable false o
/-- What the argument of `waitFor` refers to (`waitfor.h:93-105`). -/
def aim : Arg V E → Aim
  | .ext _ => .ext
  | .task o => .task (s.obj o).handle
/-- UB class when library code touches a dead object: its own temporary, or one the user owns.
Bookkeeping of the model, no counterpart in /repo. -/
def objFault (o : Nat) : UB := if (s.obj o).owner = .user then .badObj else .libObj
end State

/-- Result of the promise after `std::move(promise().result())` was taken (`taskbase.h:69`,
`taskpromise.h:51-58`): a value is moved from, an exception_ptr stays. -/
def afterRead (P : Prog σ V E) : Res V E → Res V E
  | .val v => .val (P.mv v)
  | .exc e => .exc e

/-- `TaskPromiseBase::derefCoroutine` / `destroyCoroutine` (`taskpromisebase.h:53-57, 63-67`): when the count
drops to zero the frame is destroyed, which destroys its by-value parameters (reverse order). -/
def deref (s : State σ V E) (c : Nat) : State σ V E :=
  if (s.coro c).freed then s.fail .uaf
  else match (s.coro c).rc with
  | 0 => s.fail .rcUnderflow
  | 1 =>
    if (s.coro c).status = .running then s.fail .badDestroy
    else ((s.setCoro c { s.coro c with rc := 0, freed := true }).emit (.destroyed c)).push
           (.drops (s.coro c).owned.reverse)
  | n + 2 => s.setCoro c { s.coro c with rc := n + 1 }

/-- `~TaskBase` (`taskbase.h:43-47`); `~LazyTask` (`lazytask.h:31-37`) only prints a warning. -/
def dropObj (s : State σ V E) (o : Nat) : State σ V E :=
  match (s.obj o).handle with
  | none => s.setObj o { s.obj o with alive := false }
  | some c => deref (s.setObj o { s.obj o with alive := false, handle := none }) c

/-- `TaskBase(TaskBase &&)` (`taskbase.h:24-26`): the new object is `s.no`. -/
def moveObj (s : State σ V E) (src : Nat) (own : Owner) : State σ V E :=
  let x := s.obj src
  let n := s.no
  let s := s.setObj src { x with handle := none }
  let s := s.setObj n { alive := true, owner := own, kind := x.kind, handle := x.handle }
  { s with no := n + 1 }

/-- Coroutine call: promise constructed with count 1 (`taskpromisebase.h:17-18`), `get_return_object` makes a
Task object `s.no` which takes another reference (`taskpromise.h:19`, `lazytask.h:19`, `taskbase.h:19-21`), then
`initial_suspend` (`taskpromisebase.h:22` never suspends, `lazytask.h:24` always suspends). -/
def spawn (P : Prog σ V E) (s : State σ V E) (k : Kind) (code : Code σ V E) (ps : List Nat) (v : V)
    (own : Owner) : State σ V E :=
  let c := s.nc
  let _ := P
  let s := s.setCoro c
    { kind := k, code := some code, inp := .start ps v, rc := 2, selfRef := true, owned := ps,
      status := match k with | .eager => .running | .lazy => .initial }
  let s := s.setObj s.no { alive := true, owner := own, kind := k, handle := some c }
  let s := { s with nc := s.nc + 1, no := s.no + 1 }
  let s := s.emit (.spawned c k)
  match k with
  | .eager => (s.emit (.started c)).push (.body c)
  | .lazy => s

/-- Move each argument into a fresh parameter object. Move construction `qcoro/impl/taskbase.h:24-26` of each by-value parameter. -/
def moveArgs (s : State σ V E) : List Nat → State σ V E × List Nat
  | [] => (s, [])
  | a :: as =>
    if s.usable false a then
      let r := moveArgs (moveObj s a .user) as
      (r.1, s.no :: r.2)
    else (s.fail .badObj, [])

/-- `operator co_await` of Task (`taskbase.h:55-78`, `taskawaiterbase.h:18-30`) and LazyTask
(`lazytask.h:40-65`), performed by running coroutine `a` (whose activation is on top of the stack). -/
def awaitObj (P : Prog σ V E) (s : State σ V E) (a o : Nat) (priv : Bool) : State σ V E :=
  if s.usable priv o then
    match (s.obj o).handle with
    | none =>
      match (s.obj o).kind with
      | .eager =>   -- await_suspend: warning only, "this will hang forever"
        ((s.setCoro a { s.coro a with status := .waitNull }).emit (.hung a)).pop
      | .lazy => s.fail .lazyNull
    | some d =>
      if (s.coro d).freed then s.fail .uaf
      else if (s.coro d).status = .done then   -- await_ready
        match (s.coro d).result with
        | none => s.fail .noResult
        | some r =>
          let s := s.setCoro d { s.coro d with result := some (afterRead P r) }
          (s.reply (some a) (.res r)).emit (.gotReady a d r)
      else
        match (s.obj o).kind with
        | .eager =>
          let s := s.setCoro d { s.coro d with awaiters := (s.coro d).awaiters ++ [a] }
          let s := s.setCoro a { s.coro a with status := .waitTask d }
          (s.emit (.awaitReg a d)).pop
        | .lazy =>   -- register, then symmetric transfer to the awaited coroutine
          if (s.coro d).status = .initial then
            let s := s.setCoro d { s.coro d with awaiters := (s.coro d).awaiters ++ [a], status := .running }
            let s := s.setCoro a { s.coro a with status := .waitTask d }
            (((s.emit (.awaitReg a d)).pop).emit (.started d)).push (.body d)
          else s.fail .lazyReawait
  else s.fail (if priv then s.objFault o else .badObj)

/-- Reaching `co_return`/an escaping exception and `final_suspend` (`taskpromise.h:24-48`,
`taskpromisebase.h:26-28`: the awaiter list is copied into the TaskFinalSuspend object). -/
def finish (s : State σ V E) (c : Nat) (r : Res V E) : State σ V E :=
  let s := s.setCoro c { s.coro c with status := .done, result := some r, fin := (s.coro c).awaiters }
  ((s.emit (.finished c r)).pop).push (.final c)

/-- `TaskBase::then` (`taskbase.h:83-112`): kind of the resulting task (`taskbase.h:135,168`). -/
def thenKind (cfg : ThenCfg σ) (k : Kind) : Kind := cfg.cbTask.getD k

/-- One API action by `who` (`none`: main program between events).
Lines of /repo are cited at each case (file names are those of `qcoro/impl/`). -/
def doUser (P : Prog σ V E) (s : State σ V E) (who : Option Nat) : UAct σ V E → State σ V E
  | .ret v => match who with | none => s | some c => finish s c (.val v)
  | .throw e => match who with | none => s | some c => finish s c (.exc e)
  | .call k code v args =>
    let r := moveArgs s args
    if r.1.ub.isSome then r.1
    else
      let s := r.1
      let s := match who with
        | none => s
        | some p => s.setCoro p { s.coro p with inp := .obj s.no }
      spawn P s k (.user code) r.2 v .user
  | .await o => match who with | none => s | some c => awaitObj P s c o false
  | .awaitExt (some r) =>        -- await_ready() is true: the body goes on at once
    match who with
    | none => s
    | some c => ((s.emit (.extSusp c)).emit (.extRes c r)).reply (some c) (.res r)
  | .awaitExt none =>
    match who with
    | none => s
    | some c => ((s.setCoro c { s.coro c with status := .waitExt }).emit (.extSusp c)).pop
  | .drop o => if s.usable false o then dropObj (s.reply who .unit) o else s.fail .badObj
  | .moveNew src =>
    if s.usable false src then moveObj (s.reply who (.obj s.no)) src .user else s.fail .badObj
  | .moveAssign dst src =>       -- taskbase.h:30-40 (the destination is emptied before the release, see DESIGN)
    if s.usable false dst && s.usable false src && (s.obj dst).kind = (s.obj src).kind then
      let s := s.reply who .unit
      if dst = src then s
      else match (s.obj dst).handle with
        | none => s.push (.assign dst src)
        | some c => deref ((s.setObj dst { s.obj dst with handle := none }).push (.assign dst src)) c
    else s.fail .badObj
  | .mkNull k =>
    let s' := s.setObj s.no { alive := true, kind := k }
    ({ s' with no := s.no + 1 }).reply who (.obj s.no)
  | .isReady o =>                -- taskbase.h:50-52
    if s.usable false o then
      match (s.obj o).handle with
      | none => (s.reply who (.flag true)).emit (.ready o none true)
      | some c =>
        if (s.coro c).freed then s.fail .uaf
        else
          let b := decide ((s.coro c).status = .done)
          (s.reply who (.flag b)).emit (.ready o (some c) b)
    else s.fail .badObj
  | .waitFor o isVoid =>         -- waitfor.h:67-88, 93-105: construct the context, call runCoroutine
    if s.usableArg o then
      let w := s.nw
      let s := s.setW w { alive := true, isVoid := isVoid, caller := who }
      let s := { s with nw := s.nw + 1 }
      let s := s.emit (.waitCall w s.nc (s.aim o))
      let s := s.push (.waitA w s.no)
      spawn P s .eager (.waitRun w o .init) [] P.dflt .stk
    else s.fail .badObj
  | .thenL o cfg =>              -- taskbase.h:83-86, 102-104: thenImplRef keeps a reference to o
    if s.usable false o then
      let s := (s.emit (.thenMade s.nc (s.obj o).handle (cfg.plain.info false))).reply who (.obj s.no)
      spawn P s (thenKind cfg (s.obj o).kind) (.thenC o cfg.plain .init) [] P.dflt .user
    else s.fail .badObj
  | .thenR o cfg =>              -- taskbase.h:91-96, 110-112: thenImpl takes the task as a by-value parameter
    if s.usable false o then
      let k := (s.obj o).kind
      let p := s.no
      let s := s.emit (.thenMade s.nc (s.obj o).handle (cfg.plain.info true))
      let s := (moveObj s o (.param s.nc))
      let s := s.reply who (.obj s.no)
      spawn P s (thenKind cfg k) (.thenC p cfg.plain .init) [p] P.dflt .user
    else s.fail .badObj
  | .connect o q code =>         -- connect.h:20-50: lvalue then() with a guarded callback, result discarded
    if s.usable false o && (s.obj o).kind = .eager then
      let s := (s.emit (.thenMade s.nc (s.obj o).handle ⟨false, some q, false, false⟩)).reply who .unit
      let s := s.push (.drops [s.no])
      spawn P s .eager (.thenC o ⟨code, none, none, some q⟩ .init) [] P.dflt .stk
    else s.fail .badObj
  | .delCtx q => ({ s with qalive := fun i => if i = q then false else s.qalive i }.reply who .unit).emit (.ctxDel q)
  | .note n => (s.reply who .unit).emit (.note who n)

/-- The `co_await` of `runCoroutine` (`waitfor.h:48,58`): on a Task, or on another awaitable. -/
def waitAct : Arg V E → UAct σ V E
  | .ext now => .awaitExt now
  | .task o => .await o

/-- Body of `runCoroutine` (`waitfor.h:45-64`). -/
def waitNext (P : Prog σ V E) (w : Nat) (o : Arg V E) : WPhase → Resp V E → WPhase × Act σ V E
  | .init, _ => (.waiting, .u (waitAct o))
  | .waiting, .res r => (.signalled, .waitDone w r)
  | .signalled, _ => (.over, .u (.ret P.dflt))
  | _, _ => (.over, .stuck)

/-- A callback that is not a coroutine, and an error callback, is an ordinary function: it contains no `co_await`
(the compiler would reject it).  A user program that asks for one there is read as skipping it.
Callbacks are called at `qcoro/impl/taskbase.h:116-131`. -/
def inlineAct : UAct σ V E → UAct σ V E
  | .await _ => .note 0
  | .awaitExt _ => .note 0
  | a => a

/-- Translate an action of an inline callback (`taskbase.h:145,152`): `connect`'s lambda returns void
(`connect.h:24-28,34-38`). -/
def cbEnd (P : Prog σ V E) (cfg : ThenCfg σ) : UAct σ V E → UAct σ V E
  | .ret v => .ret (if cfg.guard.isSome then P.dflt else v)
  | a => inlineAct a

/-- The error callback's return value is ignored, `U{}` is returned (`taskbase.h:126-131`). -/
def errEnd (P : Prog σ V E) : UAct σ V E → UAct σ V E
  | .ret _ => .ret P.dflt
  | a => inlineAct a

/-- Body of `thenImpl` / `thenImplRef` (`taskbase.h:135-197`), with `connect`'s lambda (`connect.h:23-48`)
when `cfg.guard` is set.  `tmp` says whether the awaited task is the by-value parameter. -/
def thenNext (P : Prog σ V E) (o : Nat) (cfg : ThenCfg σ) (tmp : Bool) :
    TPhase σ V E → Resp V E → TPhase σ V E × Act σ V E
  | .init, _ => (.waiting, if tmp then .awaitTmp o else .u (.await o))
  | .waiting, .res (.val v) =>
    match cfg.guard with
    | none => (.cbStart v, .markCb v)
    | some q => (.guard v, .ctxAlive q v)
  | .waiting, .res (.exc e) =>
    if P.isStd e then
      match cfg.err with
      | none => (.over, .u (.throw e))
      | some s => (.errStart s e, .markErr e)
    else (.over, .u (.throw e))
  | .guard v, .flag true => let r := P.next cfg.cb (.start [] v); (.cbRun r.1, .u (cbEnd P cfg r.2))
  | .guard _, .flag false => (.over, .u (.ret P.dflt))
  | .cbStart v, _ =>
    match cfg.cbTask with
    | none => let r := P.next cfg.cb (.start [] v); (.cbRun r.1, .u (cbEnd P cfg r.2))
    | some k => (.cbCalled, .callTmp k cfg.cb v)
  | .cbRun s, i => let r := P.next s i; (.cbRun r.1, .u (cbEnd P cfg r.2))
  | .cbCalled, .obj t => (.cbAwait t, .awaitTmp t)
  | .cbAwait t, .res r => (.cbDrop r, .dropTmp t)
  | .cbDrop (.val v), _ => (.over, .u (.ret v))
  | .cbDrop (.exc e), _ => (.over, .u (.throw e))
  | .errStart s e, _ => let r := P.next s (.res (.exc e)); (.errRun r.1, .u (errEnd P r.2))
  | .errRun s, i => let r := P.next s i; (.errRun r.1, .u (errEnd P r.2))
  | _, _ => (.over, .stuck)

/-- Next action of a coroutine.
Dispatches to the models of `qcoro/impl/waitfor.h:45-64` and `qcoro/impl/taskbase.h:135-197`; user code is arbitrary. -/
def codeNext (P : Prog σ V E) (owned : List Nat) : Code σ V E → Resp V E → Code σ V E × Act σ V E
  | .user s, i => let r := P.next s i; (.user r.1, .u r.2)
  | .waitRun w o ph, i => let r := waitNext P w o ph i; (.waitRun w o r.1, r.2)
  | .thenC o cfg ph, i => let r := thenNext P o cfg (owned.contains o) ph i; (.thenC o cfg r.1, r.2)

/-- One action of running coroutine `c`.
`markCb`/`callTmp`: `invokeCb` (`qcoro/impl/taskbase.h:116`); `markErr`: `handleException` (`:126-131`); `ctxAlive`: `qcoro/impl/connect.h:24-28,34-38`; `waitDone`: `qcoro/impl/waitfor.h:47-63`. -/
def doAct (P : Prog σ V E) (s : State σ V E) (c : Nat) : Act σ V E → State σ V E
  | .u a => doUser P s (some c) a
  | .markCb v => (s.reply (some c) .unit).emit (.cb c v)
  | .markErr e => (s.reply (some c) .unit).emit (.err c e)
  | .ctxAlive q v =>
    let s' := s.reply (some c) (.flag (s.qalive q))
    if s.qalive q then s'.emit (.cb c v) else s'.emit (.guardDead c)
  | .waitDone w r =>             -- waitfor.h:47-52, 57-63
    if (s.wctx w).alive then
      (s.setW w { s.wctx w with fin := some r, exit := true }).reply (some c) .unit
    else s.fail .waitCtxDead
  | .callTmp k code v =>
    let s := (s.setCoro c { s.coro c with inp := .obj s.no }).emit (.cbTask c s.nc)
    spawn P s k (.user code) [] v (.tmp c)
  | .awaitTmp o => awaitObj P s c o true
  | .dropTmp o => if s.usable true o then dropObj (s.reply (some c) .unit) o else s.fail (s.objFault o)
  | .stuck => s.fail .stuck

/-- `waitFor` returns to its caller (`waitfor.h:74-86`). -/
def waitReturn (P : Prog σ V E) (s : State σ V E) (w : Nat) : State σ V E :=
  let x := s.wctx w
  match x.fin with
  | some r => (((s.setW w { x with alive := false }).pop).reply x.caller (.res r)).emit (.waitRet w r)
  | none =>
    if x.isVoid then
      (((s.setW w { x with alive := false }).pop).reply x.caller (.res (.val P.dflt))).emit
        (.waitRet w (.val P.dflt))
    else s.fail .waitNoResult

/-- One step of the innermost native activation.
`body`: the coroutine continues; `final`: `qcoro/impl/taskfinalsuspend.h:24-34`; `drops`: `~TaskBase` (`qcoro/impl/taskbase.h:43-47`); `assign`: `:30-40`; `waitA`, `waitB`, `loop`: `qcoro/impl/waitfor.h:67-88`. -/
def run (P : Prog σ V E) (s : State σ V E) : State σ V E :=
  match s.stack with
  | [] => s
  | .body c :: _ =>
    if (s.coro c).freed then s.fail .uaf
    else match (s.coro c).code with
    | none => s.fail .stuck
    | some code =>
      let r := codeNext P (s.coro c).owned code (s.coro c).inp
      doAct P (s.setCoro c { s.coro c with code := some r.1 }) c r.2
  | .final c :: _ =>             -- taskfinalsuspend.h:24-34
    if (s.coro c).freed then s.fail .uaf
    else match (s.coro c).fin with
    | a :: rest =>
      let s := s.setCoro c { s.coro c with fin := rest }
      if (s.coro a).freed then s.fail .uaf
      else if (s.coro a).status = .waitTask c then   -- awaiter.resume(), await_resume()
        match (s.coro c).result with
        | none => s.fail .noResult
        | some r =>
          let s := s.setCoro c { s.coro c with result := some (afterRead P r) }
          let s := s.setCoro a { s.coro a with status := .running, inp := .res r }
          (s.emit (.gotWoken a c r)).push (.body a)
      else s.fail .badResume
    | [] => deref ((s.setCoro c { s.coro c with selfRef := false }).pop) c
  | .drops os :: _ =>
    match os with
    | [] => s.pop
    | o :: os =>
      let s := s.pop.push (.drops os)
      if s.usable true o then dropObj s o else s.fail (s.objFault o)
  | .assign dst src :: _ =>
    let s := s.pop
    if s.usable false dst && s.usable false src then
      let h := (s.obj src).handle
      let s := s.setObj dst { s.obj dst with handle := h }
      s.setObj src { s.obj src with handle := none }
    else s.fail .badObj
  | .waitA w tmp :: _ =>         -- end of the full expression: the Task returned by runCoroutine is destroyed
    let s := s.pop.push (.waitB w)
    if s.usable true tmp then dropObj s tmp else s.fail (s.objFault tmp)
  | .waitB w :: _ =>
    if (s.wctx w).fin.isSome then waitReturn P s w
    else ((s.pop).push (.loop w)).emit (.loopEnter w)
  | .loop w :: _ => if (s.wctx w).exit then waitReturn P s w else s

/-- Is the code about to run code of the user (a coroutine body or a callback in progress), not the library's own
(`qcoro/impl/waitfor.h:45-64`, `qcoro/impl/taskbase.h:135-197` outside the callbacks)? -/
def Code.isUser : Code σ V E → Bool
  | .user _ => true
  | .thenC _ _ (.cbRun _) => true
  | .thenC _ _ (.errRun _) => true
  | _ => false

/-- The environment may act when control is in an event loop (the application's or waitFor's), and also when it is in a
coroutine body or callback of the user: that code may call any other code (a slot, an event handler), which uses the API,
completes what other coroutines await synchronously (a direct connection) or quits event loops.
`qcoro/impl/waitfor.h:72,81` is the library's own event loop. -/
def State.mayAct (s : State σ V E) : Bool :=
  match s.stack with
  | [] => true
  | .loop _ :: _ => true
  | .body c :: _ => (s.coro c).code.any Code.isUser
  | _ => false

/-- Schedule.
Models the environment (application, event loop, operating system) rather than code of /repo. `exitLoop` concerns the loop of `qcoro/impl/waitfor.h:72,81`. -/
inductive Op (σ V E : Type)
  | run                               -- let the innermost activation proceed
  | main (a : UAct σ V E)             -- main program / an event handler performs an API action
  | fire (c : Nat) (r : Res V E)      -- what c awaits externally completes with r
  | exitLoop (w : Nat)                -- someone calls quit() on w's event loop

/-- One scheduling choice; Bookkeeping of the model, no counterpart in /repo. The code run is that of `run` and `doUser`. -/
def step (P : Prog σ V E) (s : State σ V E) (op : Op σ V E) : State σ V E :=
  if s.ub.isSome then s
  else match op with
  | .run => run P s
  | .main a => if s.mayAct then doUser P s none a else s
  | .fire c r =>
    if s.mayAct && (s.coro c).status = .waitExt then
      ((s.setCoro c { s.coro c with status := .running, inp := .res r }).emit (.extRes c r)).push (.body c)
    else s
  | .exitLoop w =>
    if s.mayAct && s.stack.contains (.loop w) then (s.setW w { s.wctx w with exit := true }).emit (.extExit w)
    else s

/-- Bookkeeping of the model, no counterpart in /repo. -/
def init : State σ V E := {}

/-- State after a schedule. Bookkeeping of the model, no counterpart in /repo. -/
def exec (P : Prog σ V E) (ops : List (Op σ V E)) : State σ V E := ops.foldl (step P) init

/-- Reachable states: some program, some schedule. Bookkeeping of the model, no counterpart in /repo. -/
def Reachable (P : Prog σ V E) (s : State σ V E) : Prop := ∃ ops, s = exec P ops

end QCoro.Task
