import Verif.Util.Basic
/-
Model of `QCoro::Generator<T>` (`qcoro/qcorogenerator.h`).

Coroutine frames, `Generator` objects and iterators live in numbered tables; the native call stack is explicit.
Generator bodies are arbitrary transducers (`Prog`) and may themselves create and iterate generators, so nesting and
re-entrancy are covered.  The main program is the list of operations given by the environment.

Simplifications: iterator objects are never destroyed (they are trivially destructible values); a body that runs for
ever between two `co_yield`s is an execution that keeps performing `tick`s.
-/
namespace QCoro.Gen

/-- What user code gets back from its last action. Return values of the API of `qcoro/qcorogenerator.h:154-286`. -/
inductive Resp (V E : Type)
  | start                     -- body runs for the first time
  | resumed (v : V)           -- resumed after co_yield; `v` is what the yielded variable holds now
  | unit
  | obj (o : Nat)             -- a new Generator object
  | iter (i : Nat)            -- an iterator
  | flag (b : Bool)
  | val (v : V)
  | threw (e : E)             -- begin()/++ threw
deriving DecidableEq, Repr

/-- API calls. The public members of `Generator` and `GeneratorIterator` (`qcoro/qcorogenerator.h:154-301`). -/
inductive Api (σ V : Type)
  | create (s : σ)            -- call a generator coroutine with body `s`
  | mkNull                    -- Generator()
  | begin (o : Nat)           -- o.begin()
  | endIt                     -- o.end()
  | inc (i : Nat)             -- ++i
  | copyIt (i : Nat)          -- auto j = i
  | cmp (i j : Nat)           -- i == j
  | deref (i : Nat)           -- read *i
  | poke (i : Nat) (v : V)    -- *i = v  (operator* returns a non-const reference)
  | moveNew (o : Nat)         -- Generator g{std::move(o)}
  | moveAssign (d s : Nat)    -- d = std::move(s)
  | drop (o : Nat)            -- destroy the object
  | work (n : Nat)            -- any other side effect

/-- Actions of a generator body. `co_yield`, `co_return` and exceptions reach the promise at `qcoro/qcorogenerator.h:63-87`. -/
inductive Act (σ V E : Type)
  | api (a : Api σ V)
  | yield (v : V)             -- co_yield v
  | ret                       -- co_return / flow off the end
  | throw (e : E)             -- an exception escapes

/-- User program: bodies as transducers. Stands for the code of the user of the library. -/
structure Prog (σ V E : Type) where
  next : σ → Resp V E → σ × Act σ V E

/-- C++ coroutine state: `initial` at `initial_suspend` (`qcoro/qcorogenerator.h:44`), `done` at `final_suspend` (`:52-55`). -/
inductive Status | unborn | initial | yielded | running | done
deriving DecidableEq, Repr

/-- Coroutine frame with `GeneratorPromise` (`qcorogenerator.h:126-127`).
`value` is what `mValue` points to (`none` = `nullptr`). -/
structure Frame (σ V E : Type) where
  st : Option σ := none
  inp : Resp V E := .start
  status : Status := .unborn
  value : Option V := none
  exc : Option E := none
  freed : Bool := false

/-- A `Generator` object: `mGeneratorCoroutine` (`qcorogenerator.h:301`). -/
inductive Obj | none | live (h : Option Nat) | dead
deriving DecidableEq, Repr

/-- Which call is in progress: `begin()` of an object or `++` of an iterator. (`qcoro/qcorogenerator.h:269`, `:166`). -/
inductive Call | begin (o : Nat) | inc (i : Nat)
deriving DecidableEq, Repr

/-- Undefined behaviour.  `doubleDestroy` and `ownerDangling` would be the library's own fault.
C++ undefined behaviour in `qcoro/qcorogenerator.h`. -/
inductive Ub
  | deadObject         -- use of a destroyed Generator object
  | nullBegin          -- begin() on an empty Generator (`qcorogenerator.h:270`)
  | resumeDone         -- resuming a finished coroutine
  | resumeRunning      -- re-entrant begin()/++
  | iterDangling       -- iterator used after its generator was destroyed
  | derefEnd           -- *end(), or dereference while the generator is finished or running (the pointer may dangle)
  | destroyRunning     -- Generator destroyed by its own body
  | movedWhileRunning  -- Generator object moved from or reassigned by the body during begin(); no claim is made then
  | badIter            -- iterator that was never created
  | doubleDestroy
  | ownerDangling
  | stuck
deriving DecidableEq, Repr

/-- Observable events.
Emitted by the models of the functions of `qcoro/qcorogenerator.h`; Bookkeeping of the model, no counterpart in /repo. -/
inductive Ev (V E : Type)
  | created (g o : Nat)                 -- generator function called: coroutine g, returned object o
  | adv (g : Nat) (c : Call) (seen : Option V)  -- begin()/++ resumes the coroutine, which sees its yielded variable as `seen`
  | ran (g : Nat)                       -- body g executes one action
  | yielded (g : Nat) (v : V)           -- body executes co_yield v
  | returned (g : Nat)
  | raised (g : Nat) (e : E)
  | got (g : Nat) (i : Nat)             -- begin()/++ returned; iterator i now refers to g
  | gotEnd (g : Nat) (i : Nat)          -- begin()/++ returned; iterator i == end()
  | gotExc (g : Nat) (c : Call) (e : E) -- begin()/++ threw e
  | incEnd (i : Nat)                    -- ++ on an end iterator returned
  | mkEnd (i : Nat)                     -- end() returned iterator i
  | copied (i j : Nat)                  -- iterator j made as a copy of i
  | cmp (i j : Nat) (b : Bool)          -- i == j returned b
  | read (i : Nat) (v : V)              -- *i read as v
  | poked (g : Nat) (v : V)             -- v written through an iterator of g
  | mkNull (o : Nat)                    -- Generator() : object o
  | moved (o n : Nat)                   -- object n move-constructed from o
  | assigned (d c : Nat)                -- object d move-assigned from c
  | dropped (o : Nat) (g : Option Nat)  -- object o destroyed; if `some g`, coroutine frame g destroyed with it
  | work (who : Option Nat) (n : Nat)
deriving DecidableEq, Repr

/-- Frames, `Generator` objects (`qcoro/qcorogenerator.h:301`), iterators (`:154-200`), native stack, trace. -/
structure State (σ V E : Type) where
  fr : Nat → Frame σ V E := fun _ => {}
  nf : Nat := 0
  obj : Nat → Obj := fun _ => .none
  no : Nat := 0
  it : Nat → Option (Option Nat) := fun _ => none   -- iterator table; `some none` = end()
  ni : Nat := 0
  stack : List (Nat × Call) := []
  log : List (Ev V E) := []
  ub : Option Ub := none

variable {σ V E : Type}

/-- Bookkeeping of the model, no counterpart in /repo. -/
def State.emit (s : State σ V E) (e : Ev V E) : State σ V E := { s with log := s.log ++ [e] }
/-- Bookkeeping of the model, no counterpart in /repo. -/
def State.fail (s : State σ V E) (u : Ub) : State σ V E := { s with ub := some u }

/-- Deliver a response to the code on top of the stack (the main program needs none).
Bookkeeping of the model, no counterpart in /repo. -/
def State.reply (s : State σ V E) (r : Resp V E) : State σ V E :=
  match s.stack with
  | [] => s
  | (g, _) :: _ => { s with fr := upd s.fr g { s.fr g with inp := r } }

/-- `coroutine_handle::resume()` on generator `g` from call `c`.  `bad` is the failure when `g` was destroyed.
Called at `qcoro/qcorogenerator.h:171` and `:270`. -/
def State.resume (s : State σ V E) (g : Nat) (c : Call) (bad : Ub) : State σ V E :=
  let f := s.fr g
  if f.freed then s.fail bad
  else match f.status with
    | .initial =>
      { (s.emit (.adv g c f.value)) with
        fr := upd s.fr g { f with status := .running, inp := .start }
        stack := (g, c) :: s.stack }
    | .yielded =>
      match f.value with
      | some v =>
        { (s.emit (.adv g c f.value)) with
          fr := upd s.fr g { f with status := .running, inp := .resumed v }
          stack := (g, c) :: s.stack }
      | none => s.fail .stuck
    | .running => s.fail .resumeRunning
    | .done => s.fail .resumeDone
    | .unborn => s.fail .stuck

/-- `GeneratorIterator::operator++` after `resume()` returned (`qcorogenerator.h:172-178`): if the promise is
`finished()` (107-109) the iterator becomes null, then `rethrowIfException` (111-115). -/
def State.afterInc (s : State σ V E) (g i : Nat) : State σ V E :=
  match s.it i with
  | some (some h) =>
    let f := s.fr h
    if f.freed then s.fail .iterDangling
    else match f.value with
      | none =>
        let s := { s with it := upd s.it i (some none) }
        match f.exc with
        | some e => (s.emit (.gotExc g (.inc i) e)).reply (.threw e)
        | none => (s.emit (.gotEnd g i)).reply (.iter i)
      | some _ => (s.emit (.got g i)).reply (.iter i)
  | some none => s.fail .resumeRunning
  | none => s.fail .badIter

/-- `Generator::begin()` after `resume()` returned (`qcorogenerator.h:271-275`). -/
def State.afterBegin (s : State σ V E) (g o : Nat) : State σ V E :=
  match s.obj o with
  | .live (some h) =>
    let f := s.fr h
    if h ≠ g then s.fail .movedWhileRunning
    else if f.freed then s.fail .ownerDangling
    else match f.value with
      | none =>
        match f.exc with
        | some e => (s.emit (.gotExc g (.begin o) e)).reply (.threw e)
        | none =>
          (({ s with it := upd s.it s.ni (some none), ni := s.ni + 1 } : State σ V E).emit (.gotEnd g s.ni)).reply (.iter s.ni)
      | some _ =>
          (({ s with it := upd s.it s.ni (some (some h)), ni := s.ni + 1 } : State σ V E).emit (.got g s.ni)).reply (.iter s.ni)
  | .live none => s.fail .movedWhileRunning
  | _ => s.fail .deadObject

/-- Control returns from the coroutine `g` to the `resume()` call in `c`. (`qcoro/qcorogenerator.h:172-178`, `:271-275`). -/
def State.after (s : State σ V E) (g : Nat) : Call → State σ V E
  | .inc i => s.afterInc g i
  | .begin o => s.afterBegin g o

/-- Execute an API call made by the code on top of the stack. Lines of `qcoro/qcorogenerator.h` are cited at each case. -/
def State.api (s : State σ V E) : Api σ V → State σ V E
  | .create b =>     -- initial_suspend (`:44`), get_return_object (`:307-310`)
    let g := s.nf
    let o := s.no
    (({ s with
        fr := upd s.fr g { st := some b, status := .initial }, nf := g + 1
        obj := upd s.obj o (.live (some g)), no := o + 1 } : State σ V E).emit (.created g o)).reply (.obj o)
  | .mkNull =>       -- `:238`
    (({ s with obj := upd s.obj s.no (.live none), no := s.no + 1 } : State σ V E).emit (.mkNull s.no)).reply (.obj s.no)
  | .begin o =>      -- `:269-270`
    match s.obj o with
    | .live (some g) => s.resume g (.begin o) .ownerDangling
    | .live none => s.fail .nullBegin
    | _ => s.fail .deadObject
  | .endIt =>        -- `:284-286`
    (({ s with it := upd s.it s.ni (some none), ni := s.ni + 1 } : State σ V E).emit (.mkEnd s.ni)).reply (.iter s.ni)
  | .inc i =>        -- `:166-171`
    match s.it i with
    | some none => (s.emit (.incEnd i)).reply (.iter i)
    | some (some g) => s.resume g (.inc i) .iterDangling
    | none => s.fail .badIter
  | .copyIt i =>     -- implicit copy constructor
    match s.it i with
    | some h => (({ s with it := upd s.it s.ni (some h), ni := s.ni + 1 } : State σ V E).emit (.copied i s.ni)).reply (.iter s.ni)
    | none => s.fail .badIter
  | .cmp i j =>      -- `:188-190`
    match s.it i, s.it j with
    | some a, some b => (s.emit (.cmp i j (a == b))).reply (.flag (a == b))
    | _, _ => s.fail .badIter
  | .deref i =>      -- `:184-186`, `:99-102`
    match s.it i with
    | some (some g) =>
      if (s.fr g).freed then s.fail .iterDangling
      else match (s.fr g).status, (s.fr g).value with
        | .yielded, some v => (s.emit (.read i v)).reply (.val v)
        | _, _ => s.fail .derefEnd
    | some none => s.fail .derefEnd
    | none => s.fail .badIter
  | .poke i v =>
    match s.it i with
    | some (some g) =>
      if (s.fr g).freed then s.fail .iterDangling
      else match (s.fr g).status, (s.fr g).value with
        | .yielded, some _ => (({ s with fr := upd s.fr g { s.fr g with value := some v } } : State σ V E).emit (.poked g v)).reply .unit
        | _, _ => s.fail .derefEnd
    | some none => s.fail .derefEnd
    | none => s.fail .badIter
  | .moveNew o =>    -- `:239-242`
    match s.obj o with
    | .live h =>
      (({ s with obj := upd (upd s.obj s.no (.live h)) o (.live none), no := s.no + 1 } : State σ V E).emit
        (.moved o s.no)).reply (.obj s.no)
    | _ => s.fail .deadObject
  | .moveAssign d c =>  -- `:244-248`: no destruction of the old coroutine, no self-assignment check
    match s.obj d, s.obj c with
    | .live _, .live h =>
      (({ s with obj := upd (upd s.obj d (.live h)) c (.live none) } : State σ V E).emit (.assigned d c)).reply .unit
    | _, _ => s.fail .deadObject
  | .drop o =>       -- `:255-259`
    match s.obj o with
    | .live (some g) =>
      if (s.fr g).freed then s.fail .doubleDestroy
      else if (s.fr g).status = .running then s.fail .destroyRunning
      else (({ s with obj := upd s.obj o .dead, fr := upd s.fr g { s.fr g with freed := true } } : State σ V E).emit (.dropped o (some g))).reply .unit
    | .live none => (({ s with obj := upd s.obj o .dead } : State σ V E).emit (.dropped o none)).reply .unit
    | _ => s.fail .deadObject
  | .work n =>
    (s.emit (.work (s.stack.head?.map (·.1)) n)).reply .unit

/-- One action of the running body `g`. Lines of `qcoro/qcorogenerator.h` are cited at each case. -/
def State.body (s : State σ V E) (g : Nat) (c : Call) (rest : List (Nat × Call)) : Act σ V E → State σ V E
  | .api a => s.api a
  | .yield v =>      -- yield_value (`:74-82`), then control returns to the resumer
    (({ s with fr := upd s.fr g { s.fr g with value := some v, status := .yielded }, stack := rest } : State σ V E).emit
      (.yielded g v)).after g c
  | .ret =>          -- return_void (`:87`), final_suspend (`:52-55`)
    (({ s with fr := upd s.fr g { s.fr g with value := none, status := .done }, stack := rest } : State σ V E).emit
      (.returned g)).after g c
  | .throw e =>      -- unhandled_exception (`:63-65`), final_suspend
    (({ s with fr := upd s.fr g { s.fr g with exc := some e, value := none, status := .done }, stack := rest } : State σ V E).emit
      (.raised g e)).after g c

/-- Choices of the environment: the main program makes an API call, or the running body executes one action.
Models the environment (application, event loop, operating system) rather than code of /repo. -/
inductive Op (σ V : Type)
  | main (a : Api σ V)
  | tick

/-- Small step.  After undefined behaviour nothing more is said. Bookkeeping of the model, no counterpart in /repo. -/
def step (P : Prog σ V E) (s : State σ V E) (op : Op σ V) : State σ V E :=
  if s.ub.isSome then s else
  match op, s.stack with
  | .main a, [] => s.api a
  | .tick, (g, c) :: rest =>
    match (s.fr g).st with
    | some st =>
      let r := P.next st (s.fr g).inp
      let s' : State σ V E := { s with fr := upd s.fr g { s.fr g with st := some r.1, inp := .unit } }
      (s'.emit (.ran g)).body g c rest r.2
    | none => s.fail .stuck
  | _, _ => s

/-- Bookkeeping of the model, no counterpart in /repo. -/
def exec (P : Prog σ V E) (ops : List (Op σ V)) : State σ V E := ops.foldl (step P) {}

theorem exec_snoc (P : Prog σ V E) (ops : List (Op σ V)) (op : Op σ V) :
    exec P (ops ++ [op]) = step P (exec P ops) op := by simp [exec]

end QCoro.Gen
