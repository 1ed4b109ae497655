import Verif.Util.Basic
/-
Model of `QCoro::AsyncGenerator<T>` (`qcoro/qcoroasyncgenerator.h`).

All coroutines (producers and their consumers, which may be producers themselves) live in one table.  Between producer and
consumer control is passed by symmetric transfer (`await_suspend` returns a handle): the one replaces the other on the native
stack.  A coroutine that suspends elsewhere, or a plain coroutine that ends, returns to whoever called or resumed it: the event
loop, or a coroutine body that called a plain coroutine or did something (emitted a signal) that resumed another one.
Bodies are arbitrary transducers.  The environment decides which externally awaited operation completes next, and when a
running body calls such code.

Simplification: local variables of a destroyed frame own no generators (objects are destroyed explicitly by `drop`).
-/
namespace QCoro.AGen

/-- What user code gets back from its last action. Return values of the API of `qcoro/qcoroasyncgenerator.h:172-363`. -/
inductive Resp (V E : Type)
  | start
  | unit
  | resumed (v : V)           -- resumed from co_yield; v is the value of the yielded variable then
  | obj (o : Nat)
  | iter (i : Nat)            -- co_await begin()/++ gave this iterator
  | flag (b : Bool)
  | val (v : V)
  | threw (e : E)             -- co_await begin()/++ threw
deriving DecidableEq, Repr

/-- Actions of coroutine bodies.
The public members of `AsyncGenerator` and `AsyncGeneratorIterator` (`qcoro/qcoroasyncgenerator.h:172-363`), and `co_yield`/`co_return`/exceptions, which reach the promise at `:41-45`, `:135-143`. -/
inductive Act (σ V E : Type)
  | create (s : σ)            -- call a generator coroutine with body `s`
  | mkNull                    -- AsyncGenerator()
  | begin (o : Nat)           -- co_await o.begin()
  | inc (i : Nat)             -- co_await ++i
  | copyIt (i : Nat)          -- auto j = i
  | isEnd (i : Nat)           -- i == o.end()
  | deref (i : Nat)           -- *i
  | poke (i : Nat) (v : V)    -- *i = v  (operator* returns a reference to the variable the producer co_yielded)
  | moveNew (o : Nat)         -- AsyncGenerator g{std::move(o)}
  | moveAssign (d s : Nat)    -- d = std::move(s)
  | swap (a b : Nat)          -- swap(a, b)
  | drop (o : Nat)            -- destroy the object
  | work (n : Nat)            -- any other side effect
  | awaitExt                  -- co_await anything else (signal, timer, Task, …)
  | yield (v : V)             -- co_yield v (producers)
  | ret
  | throw (e : E)

/-- Stands for the code of the user of the library. -/
structure Prog (σ V E : Type) where
  next : σ → Resp V E → σ × Act σ V E

/-- Which call a consumer is suspended in. (`qcoro/qcoroasyncgenerator.h:327`, `:220`). -/
inductive Call | begin | inc (i : Nat)
deriving DecidableEq, Repr

/-- C++ coroutine state: `initial` at `initial_suspend` (`qcoro/qcoroasyncgenerator.h:37`), `atYield` in the yield operation (`:84-86`), `done` at `final_suspend` (`:94-97`). -/
inductive Status | unborn | initial | running | atYield | waitExt | waitGen (g : Nat) (c : Call) | done
deriving DecidableEq, Repr

/-- A coroutine frame; for producers with `AsyncGeneratorPromise` (`qcoroasyncgenerator.h:69-73`): `value` is what
`m_currentValue` points to (`none` = `nullptr`), `consumer` is `m_consumerCoroutine`. -/
structure Frame (σ V E : Type) where
  st : Option σ := none
  inp : Resp V E := .start
  isGen : Bool := false
  status : Status := .unborn
  value : Option V := none
  exc : Option E := none
  consumer : Option Nat := none
  freed : Bool := false

/-- An `AsyncGenerator` object: `m_coroutine` (`:366`). -/
inductive Obj | none | live (h : Option Nat) | dead
deriving DecidableEq, Repr

/-- Undefined behaviour.  `doubleDestroy`, `ownerDangling` and `stuck` would be the library's own fault.
C++ undefined behaviour in `qcoro/qcoroasyncgenerator.h`. -/
inductive Ub
  | deadObject          -- use of a destroyed AsyncGenerator object
  | resumeDone          -- begin() on a finished generator / ++ of a stale iterator copy
  | resumeBusy          -- begin()/++ while the generator is already being advanced
  | iterDangling        -- iterator used after its generator was destroyed
  | incEnd              -- ++end() (`:181` dereferences the null handle)
  | derefEnd            -- *end(), or dereference while the producer is not suspended at a co_yield
  | badIter
  | destroyRunning      -- a coroutine destroys its own frame
  | yieldOutside        -- co_yield in a plain coroutine (does not compile)
  | resumeDestroyed (c : Nat)  -- what a destroyed coroutine was awaiting completes and resumes it
  | consumerDestroyed (c : Nat) -- a producer transfers to its consumer, which was destroyed while suspended in ++/begin()
  | doubleDestroy
  | ownerDangling
  | stuck
deriving DecidableEq, Repr

/-- Observable events.
Emitted by the models of the functions of `qcoro/qcoroasyncgenerator.h`; Bookkeeping of the model, no counterpart in /repo. -/
inductive Ev (V E : Type)
  | spawned (c : Nat)                    -- a plain coroutine starts
  | created (g o : Nat)                  -- generator function called: coroutine g, returned object o
  | adv (g : Nat) (k : Nat) (c : Call)   -- coroutine k suspends in begin()/++, producer g is resumed
  | ran (c : Nat)                        -- coroutine c executes one action
  | suspended (c : Nat)                  -- c suspends in a co_await of its own
  | resumed (c : Nat)                    -- … and continues
  | yielded (g : Nat) (v : V)
  | returned (g : Nat)
  | raised (g : Nat) (e : E)
  | finished (c : Nat) (e : Option E)    -- a plain coroutine ends: it returns, or an exception leaves it
  | got (g k : Nat) (i : Nat)            -- begin()/++ of consumer k completed; iterator i refers to g
  | gotEnd (g k : Nat) (i : Nat)         -- … iterator i == end()
  | gotExc (g k : Nat) (c : Call) (e : E) -- … threw e
  | emptyBegin (k i : Nat)               -- begin() of an empty generator returned end()
  | copied (i j : Nat)
  | tested (i : Nat) (b : Bool)          -- i == end() returned b
  | read (k g i : Nat) (v : V)           -- consumer k read v, the current value of g, through iterator i
  | poked (i g : Nat) (v : V)            -- v written through iterator i of g
  | mkNull (o : Nat)
  | moved (o n : Nat)
  | assigned (d c : Nat)
  | swapped (a b : Nat)
  | dropped (o : Nat) (g : Option Nat)   -- object o destroyed; if `some g`, coroutine frame g destroyed with it
  | work (c : Nat) (n : Nat)
deriving DecidableEq, Repr

/-- Frames, `AsyncGenerator` objects (`qcoro/qcoroasyncgenerator.h:366`), iterators (`:173-245`), native stack, trace. -/
structure State (σ V E : Type) where
  fr : Nat → Frame σ V E := fun _ => {}
  nf : Nat := 0
  obj : Nat → Obj := fun _ => .none
  no : Nat := 0
  it : Nat → Option (Option Nat) := fun _ => none   -- iterator table; `some none` = end()
  ni : Nat := 0
  stack : List Nat := []                            -- coroutines that are executing, the innermost first
  log : List (Ev V E) := []
  ub : Option Ub := none

variable {σ V E : Type}

/-- Bookkeeping of the model, no counterpart in /repo. -/
def State.emit (s : State σ V E) (e : Ev V E) : State σ V E := { s with log := s.log ++ [e] }
/-- Bookkeeping of the model, no counterpart in /repo. -/
def State.fail (s : State σ V E) (u : Ub) : State σ V E := { s with ub := some u }
/-- Deliver a response to coroutine `c`. Bookkeeping of the model, no counterpart in /repo. -/
def State.reply (s : State σ V E) (c : Nat) (r : Resp V E) : State σ V E :=
  { s with fr := upd s.fr c { s.fr c with inp := r } }

/-- What a producer's body is told when it is resumed: that it starts, or, at a co_yield, the value its variable has now
(`:135-148`: the iterator refers to the co_yielded variable). -/
def Frame.wake (f : Frame σ V E) : Resp V E := match f.value with | none => .start | some v => .resumed v

/-- `IteratorAwaitableBase::await_suspend` (`:117-120`): remember the consumer, transfer to the producer. -/
def State.advance (s : State σ V E) (k g : Nat) (c : Call) (bad : Ub) : State σ V E :=
  if (s.fr g).freed then s.fail bad
  else match (s.fr g).status with
    | .initial | .atYield =>
      let s1 : State σ V E := { s with fr := upd s.fr k { s.fr k with status := .waitGen g c } }
      ({ s1 with fr := upd s1.fr g { s1.fr g with consumer := some k, status := .running, inp := (s1.fr g).wake },
                 stack := g :: s.stack.tail } : State σ V E).emit (.adv g k c)
    | .done => s.fail .resumeDone
    | .unborn => s.fail .stuck
    | _ => s.fail .resumeBusy

/-- `await_resume` of the awaitable consumer `k` is suspended in
(`IncrementIteratorAwaitable` `:184-190`, `BeginIteratorAwaitable` `:339-349`). -/
def State.awaitResume (s : State σ V E) (g k : Nat) : Call → State σ V E
  | .inc i =>
    match (s.fr g).value with                               -- finished() `:51-53`
    | none =>
      let s1 : State σ V E := { s with it := upd s.it i (some none) }
      match (s1.fr g).exc with                              -- rethrow_if_unhandled_exception `:55-59`
      | some e =>
        (({ s1 with fr := upd s1.fr g { s1.fr g with exc := none } } : State σ V E).emit (.gotExc g k (.inc i) e)).reply k (.threw e)
      | none => (s1.emit (.gotEnd g k i)).reply k (.iter i)
    | some _ => (s.emit (.got g k i)).reply k (.iter i)
  | .begin =>
    match (s.fr g).value with
    | none =>
      match (s.fr g).exc with
      | some e =>
        (({ s with fr := upd s.fr g { s.fr g with exc := none } } : State σ V E).emit (.gotExc g k .begin e)).reply k (.threw e)
      | none =>
        (({ s with it := upd s.it s.ni (some none), ni := s.ni + 1 } : State σ V E).emit (.gotEnd g k s.ni)).reply k (.iter s.ni)
    | some _ =>
        (({ s with it := upd s.it s.ni (some (some g)), ni := s.ni + 1 } : State σ V E).emit (.got g k s.ni)).reply k (.iter s.ni)

/-- `AsyncGeneratorYieldOperation::await_suspend` (`:84-86`): transfer to the consumer. -/
def State.transfer (s : State σ V E) (g : Nat) : State σ V E :=
  match (s.fr g).consumer with
  | none => s.fail .stuck
  | some k =>
    if (s.fr k).freed then s.fail (.consumerDestroyed k)
    else match (s.fr k).status with
      | .waitGen _ c =>
        ({ s with fr := upd s.fr k { s.fr k with status := .running }, stack := k :: s.stack.tail } : State σ V E).awaitResume g k c
      | _ => s.fail .stuck

/-- One action of the running coroutine `k`. Lines of `qcoro/qcoroasyncgenerator.h` are cited at each case. -/
def State.act (s : State σ V E) (k : Nat) : Act σ V E → State σ V E
  | .create b =>       -- initial_suspend (`:37`), get_return_object (`:377-379`)
    let g := s.nf
    let o := s.no
    (({ s with
        fr := upd s.fr g { st := some b, status := .initial, isGen := true }, nf := g + 1
        obj := upd s.obj o (.live (some g)), no := o + 1 } : State σ V E).emit (.created g o)).reply k (.obj o)
  | .mkNull =>         -- `:284`
    (({ s with obj := upd s.obj s.no (.live none), no := s.no + 1 } : State σ V E).emit (.mkNull s.no)).reply k (.obj s.no)
  | .begin o =>        -- `:327-353`
    match s.obj o with
    | .live (some g) => s.advance k g .begin .ownerDangling
    | .live none =>    -- await_ready (`:335-337`), await_resume (`:340-341`)
      (({ s with it := upd s.it s.ni (some none), ni := s.ni + 1 } : State σ V E).emit (.emptyBegin k s.ni)).reply k (.iter s.ni)
    | _ => s.fail .deadObject
  | .inc i =>          -- `:220-222`, `:180-182`
    match s.it i with
    | some (some g) => s.advance k g (.inc i) .iterDangling
    | some none => s.fail .incEnd
    | none => s.fail .badIter
  | .copyIt i =>
    match s.it i with
    | some h => (({ s with it := upd s.it s.ni (some h), ni := s.ni + 1 } : State σ V E).emit (.copied i s.ni)).reply k (.iter s.ni)
    | none => s.fail .badIter
  | .isEnd i =>        -- `:231-233`, `:356-358`
    match s.it i with
    | some h => (s.emit (.tested i (h == none))).reply k (.flag (h == none))
    | none => s.fail .badIter
  | .deref i =>        -- `:227-229`, `:145-148`
    match s.it i with
    | some (some g) =>
      if (s.fr g).freed then s.fail .iterDangling
      else match (s.fr g).status, (s.fr g).value with
        | .atYield, some v => (s.emit (.read k g i v)).reply k (.val v)
        | _, _ => s.fail .derefEnd
    | some none => s.fail .derefEnd
    | none => s.fail .badIter
  | .poke i v =>       -- `:227-229`, `:145-148`
    match s.it i with
    | some (some g) =>
      if (s.fr g).freed then s.fail .iterDangling
      else match (s.fr g).status, (s.fr g).value with
        | .atYield, some _ => (({ s with fr := upd s.fr g { s.fr g with value := some v } } : State σ V E).emit (.poked i g v)).reply k .unit
        | _, _ => s.fail .derefEnd
    | some none => s.fail .derefEnd
    | none => s.fail .badIter
  | .moveNew o =>      -- `:292-295`
    match s.obj o with
    | .live h =>
      (({ s with obj := upd (upd s.obj s.no (.live h)) o (.live none), no := s.no + 1 } : State σ V E).emit
        (.moved o s.no)).reply k (.obj s.no)
    | _ => s.fail .deadObject
  | .moveAssign d c => -- `:305-309`: no destruction of the old coroutine, no self-assignment check
    match s.obj d, s.obj c with
    | .live _, .live h =>
      (({ s with obj := upd (upd s.obj d (.live h)) c (.live none) } : State σ V E).emit (.assigned d c)).reply k .unit
    | _, _ => s.fail .deadObject
  | .swap a b =>       -- `:360-363`
    match s.obj a, s.obj b with
    | .live x, .live y =>
      (({ s with obj := upd (upd s.obj a (.live y)) b (.live x) } : State σ V E).emit (.swapped a b)).reply k .unit
    | _, _ => s.fail .deadObject
  | .drop o =>         -- `:298-302`
    match s.obj o with
    | .live (some g) =>
      if (s.fr g).freed then s.fail .doubleDestroy
      else if (s.fr g).status = .running then s.fail .destroyRunning
      else (({ s with obj := upd s.obj o .dead, fr := upd s.fr g { s.fr g with freed := true } } : State σ V E).emit
        (.dropped o (some g))).reply k .unit
    | .live none => (({ s with obj := upd s.obj o .dead } : State σ V E).emit (.dropped o none)).reply k .unit
    | _ => s.fail .deadObject
  | .work n => (s.emit (.work k n)).reply k .unit
  | .awaitExt =>
    ({ s with fr := upd s.fr k { s.fr k with status := .waitExt }, stack := s.stack.tail } : State σ V E).emit (.suspended k)
  | .yield v =>        -- yield_value (`:135-143`), internal_yield_value (`:99-101`)
    if (s.fr k).isGen then
      (({ s with fr := upd s.fr k { s.fr k with value := some v, status := .atYield } } : State σ V E).emit (.yielded k v)).transfer k
    else s.fail .yieldOutside
  | .ret =>            -- return_void (`:45`), final_suspend (`:94-97`)
    if (s.fr k).isGen then
      (({ s with fr := upd s.fr k { s.fr k with value := none, status := .done } } : State σ V E).emit (.returned k)).transfer k
    else ({ s with fr := upd s.fr k { s.fr k with status := .done }, stack := s.stack.tail } : State σ V E).emit (.finished k none)
  | .throw e =>        -- unhandled_exception (`:41-43`), final_suspend
    if (s.fr k).isGen then
      (({ s with fr := upd s.fr k { s.fr k with exc := some e, value := none, status := .done } } : State σ V E).emit
        (.raised k e)).transfer k
    else ({ s with fr := upd s.fr k { s.fr k with status := .done }, stack := s.stack.tail } : State σ V E).emit (.finished k (some e))

/-- Choices of the environment: start a plain coroutine, complete what coroutine `c` is awaiting (not a generator) – from the event
loop, or inside whatever body is executing –, let the innermost executing coroutine perform one action.
Models the environment (application, event loop, operating system) rather than code of /repo. -/
inductive Op (σ : Type)
  | spawn (b : σ)
  | ext (c : Nat)
  | tick

/-- Bookkeeping of the model, no counterpart in /repo. -/
def step (P : Prog σ V E) (s : State σ V E) (op : Op σ) : State σ V E :=
  if s.ub.isSome then s else
  match op, s.stack with
  | .spawn b, _ =>
    ({ s with fr := upd s.fr s.nf { st := some b, status := .running }, nf := s.nf + 1, stack := s.nf :: s.stack } : State σ V E).emit (.spawned s.nf)
  | .ext c, _ =>
    if (s.fr c).status = .waitExt then
      if (s.fr c).freed then s.fail (.resumeDestroyed c)
      else ({ s with fr := upd s.fr c { s.fr c with status := .running, inp := .unit }, stack := c :: s.stack } : State σ V E).emit (.resumed c)
    else s
  | .tick, k :: _ =>
    match (s.fr k).st with
    | some st =>
      let r := P.next st (s.fr k).inp
      let s' : State σ V E := { s with fr := upd s.fr k { s.fr k with st := some r.1, inp := .unit } }
      (s'.emit (.ran k)).act k r.2
    | none => s.fail .stuck
  | _, _ => s

/-- Bookkeeping of the model, no counterpart in /repo. -/
def exec (P : Prog σ V E) (ops : List (Op σ)) : State σ V E := ops.foldl (step P) {}

theorem exec_snoc (P : Prog σ V E) (ops : List (Op σ)) (op : Op σ) :
    exec P (ops ++ [op]) = step P (exec P ops) op := by simp [exec]

end QCoro.AGen
