import Verif.Util.Basic
/-
What `co_yield` hands to the consumer: both generators store the address of the yielded object (`qcoro/qcorogenerator.h:74-82`,
`qcoro/qcoroasyncgenerator.h:135-143`), and dereferencing an iterator gives a reference to it (`qcorogenerator.h:99-102`, `:184-186`;
`qcoroasyncgenerator.h:145-148`, `:227-229`).  The first part is which overload of `yield_value` an operand selects; the second one is
what happens to the objects: a generator body with variables and temporaries, a consumer with iterators and references it keeps, and
objects that belong to neither.
-/
set_option linter.unusedVariables false
namespace QCoro.Yield

/-! ### Which objects are yielded: overload resolution -/

/-- The generator's type argument: `T`, `T &`, `T &&`, with or without `const`. -/
inductive RefKind | value | lref | rref
deriving DecidableEq, Repr

/-- `Generator<…>` or `AsyncGenerator<…>`. -/
inductive Which | sync | async
deriving DecidableEq, Repr

/-- The type argument. -/
structure Arg where
  const : Bool
  ref : RefKind
deriving DecidableEq, Repr

/-- The type of the operand of `co_yield`, compared with the generator's: the same (up to const), derived from it, implicitly convertible to
it (by making a new object; conversion functions to references are not modelled), or none of these. -/
inductive Rel | same | derived | convertible | unrelated
deriving DecidableEq, Repr

/-- The operand of `co_yield`. -/
inductive Cat | lvalue | xvalue | prvalue
deriving DecidableEq, Repr

/-- The operand of `co_yield`. -/
structure Operand where
  rel : Rel
  cat : Cat
  const : Bool
deriving DecidableEq, Repr

/-- What the address of the parameter of `yield_value` is the address of: the object the operand denotes (its base subobject, if derived), or
a temporary that lives until the end of the co_yield expression. -/
inductive How | object | temporary
deriving DecidableEq, Repr

/-- Binding of an lvalue reference parameter `value_type &` (C++ language; `value_type` is const if `c`). -/
def bindL (c : Bool) (o : Operand) : Option How :=
  match o.rel with
  | .unrelated => none
  | .convertible => if c then some .temporary else none
  | .same | .derived =>
    if c then some (if o.cat = .prvalue then .temporary else .object)
    else if o.cat = .lvalue && !o.const then some .object else none

/-- Binding of an rvalue reference parameter `value_type &&` (C++ language). -/
def bindR (c : Bool) (o : Operand) : Option How :=
  match o.rel with
  | .unrelated => none
  | .convertible => some .temporary
  | .same | .derived =>
    if o.cat = .lvalue then none
    else if o.const && !c then none
    else some (if o.cat = .prvalue then .temporary else .object)

/-- `yield_value(value_type &)` and `yield_value(value_type &&)`: if both are viable the second is the better match, because it binds an
rvalue reference to an rvalue (`qcoro/qcorogenerator.h:74-82`, `qcoro/qcoroasyncgenerator.h:135-143`; `value_type` is
`std::remove_reference_t<T>`, `qcorogenerator.h:32`, `qcoroasyncgenerator.h:129`). -/
def overloads (c : Bool) (o : Operand) : Option How :=
  match bindR c o with
  | some h => some h
  | none => bindL c o

/-- `co_yield o` in a coroutine that returns the generator.  For `AsyncGenerator<T &&>` there is no such coroutine: `get_return_object` of its
promise returns another type, `AsyncGenerator<T>` (`qcoro/qcoroasyncgenerator.h:154-158`). -/
def yields (w : Which) (a : Arg) (o : Operand) : Option How :=
  match w, a.ref with
  | .async, .rref => none
  | _, _ => overloads a.const o

/-- The type of `*it`: `std::add_lvalue_reference_t<T>` (`qcoro/qcorogenerator.h:155`, `qcoro/qcoroasyncgenerator.h:202`): always an lvalue
reference (`T && &` is `T &`), to const if `T` is const. -/
def derefType (a : Arg) : Bool × RefKind := (a.const, .lref)

/-! ### What happens to the objects -/

variable {σ V : Type}

/-- What the generator's body does next (σ: where it is; V: values). Objects are numbered. -/
inductive Stmt (σ V : Type)
  | decl (v : V) (k : Nat → σ)        -- a local variable, initialised
  | assign (x : Nat) (v : V) (k : σ)
  | load (x : Nat) (k : V → σ)
  | leave (x : Nat) (k : σ)           -- end of the scope of a local variable
  | yield (x : Nat) (k : σ)           -- co_yield of an object (`How.object`)
  | yieldTmp (v : V) (k : σ)          -- co_yield of a temporary (`How.temporary`)
  | await (k : σ)                     -- co_await (asynchronous generators)
  | ret                               -- the body ends, normally or with an exception

/-- Where the generator's coroutine is. -/
inductive Phase | fresh | running | awaiting | yielded | finished | destroyed
deriving DecidableEq, Repr

/-- Undefined behaviour: an iterator without value dereferenced, an object accessed that exists no more (by the consumer, by the body), the
generator used after its destruction, resumed or destroyed when it must not be. -/
inductive Ub | noValue | dead | bodyDead | gone | misuse
deriving DecidableEq, Repr

/-- Bookkeeping of the model, no counterpart in /repo. `none`: through the iterator; `some i`: through the i-th kept reference. -/
inductive Ev (V : Type)
  | made (x : Nat) (v : V)            -- a local variable of the body
  | tmp (x : Nat) (v : V)             -- a temporary of a co_yield expression
  | outer (x : Nat) (v : V)           -- an object of somebody else
  | stored (x : Nat) (v : V)          -- assigned to by the body or by somebody else
  | loaded (x : Nat) (v : V)          -- read by the body
  | ended (x : Nat)                   -- end of the lifetime of a variable, or of an object of somebody else
  | yielded (x : Nat)
  | resumed
  | finished
  | destroyed
  | kept (x : Nat)                    -- the consumer keeps a reference (`auto &r = *it`)
  | got (r : Option Nat) (x : Nat) (v : V)   -- the consumer reads
  | put (r : Option Nat) (x : Nat) (v : V)   -- the consumer assigns
deriving DecidableEq, Repr

/-- The objects, the promise's pointer (`mValue`, `qcoro/qcorogenerator.h:126`; `m_currentValue`, `qcoro/qcoroasyncgenerator.h:73`). -/
structure State (σ V : Type) where
  mem : Nat → Option V := fun _ => none   -- the objects that exist
  own : Nat → Bool := fun _ => false      -- lives in the coroutine frame
  n : Nat := 0
  cur : Option Nat := none                -- mValue
  tmp : Option Nat := none                -- the temporary of the suspended co_yield expression
  ph : Phase := .fresh
  st : σ
  kept : List Nat := []
  log : List (Ev V) := []
  ub : Option Ub := none

/-- Models the environment and the consumer. -/
inductive Op (V : Type)
  | resume                            -- begin(), ++it
  | body                              -- the body runs on
  | wake                              -- what the body awaits is there
  | keep                              -- `auto &r = *it`
  | get (r : Option Nat)              -- read `*it`, or a kept reference
  | set (r : Option Nat) (v : V)      -- assign to it
  | outer (v : V)                     -- somebody else makes an object
  | outerSet (x : Nat) (v : V)
  | outerEnd (x : Nat)
  | destroy                           -- the generator object is destroyed

/-- The frame is destroyed, or the body is left: what lives in the frame ends. C++ language. -/
def State.dropOwn (s : State σ V) : Nat → Option V := fun x => if s.own x then none else s.mem x

/-- `*it` (`qcoro/qcorogenerator.h:184-186` and `:99-102`; `qcoro/qcoroasyncgenerator.h:227-229` and `:145-148`): the address in the promise; a
kept reference is an address too. -/
def State.target (s : State σ V) : Option Nat → Option Nat
  | none => s.cur
  | some i => s.kept[i]?

/-- One step (`qcoro/qcorogenerator.h:74-102`, `:155-186`, `qcoro/qcoroasyncgenerator.h:129-158`, `:202-229`; lines at each case). -/
def step (code : σ → Stmt σ V) (s : State σ V) (op : Op V) : State σ V :=
  match s.ub with
  | some _ => s
  | none =>
  match op with
  | .resume =>     -- `qcorogenerator.h:166-179`, `:269-276`; `qcoroasyncgenerator.h:113-125`: the co_yield expression ends, its temporary is destroyed, the body runs on
    match s.ph with
    | .fresh => { s with ph := .running, log := s.log ++ [.resumed] }
    | .yielded =>
      match s.tmp with
      | none => { s with ph := .running, log := s.log ++ [.resumed] }
      | some x => { s with mem := upd s.mem x none, tmp := none, ph := .running, log := s.log ++ [.resumed] }
    | .destroyed => { s with ub := some .gone }
    | _ => { s with ub := some .misuse }
  | .body =>
    match s.ph with
    | .running =>
      match code s.st with
      | .decl v k => { s with mem := upd s.mem s.n (some v), own := upd s.own s.n true, n := s.n + 1, st := k s.n, log := s.log ++ [.made s.n v] }
      | .assign x v k =>
        match s.mem x with
        | some _ => { s with mem := upd s.mem x (some v), st := k, log := s.log ++ [.stored x v] }
        | none => { s with ub := some .bodyDead }
      | .load x k =>
        match s.mem x with
        | some v => { s with st := k v, log := s.log ++ [.loaded x v] }
        | none => { s with ub := some .bodyDead }
      | .leave x k =>
        match s.mem x, s.own x with
        | some _, true => { s with mem := upd s.mem x none, st := k, log := s.log ++ [.ended x] }
        | _, _ => { s with ub := some .bodyDead }
      | .yield x k =>       -- `qcorogenerator.h:74-82`: mValue = std::addressof(value)
        match s.mem x with
        | some _ => { s with cur := some x, ph := .yielded, st := k, log := s.log ++ [.yielded x] }
        | none => { s with ub := some .bodyDead }
      | .yieldTmp v k =>    -- the same, with the temporary made for the parameter
        { s with mem := upd s.mem s.n (some v), own := upd s.own s.n true, n := s.n + 1, cur := some s.n, tmp := some s.n, ph := .yielded, st := k,
                 log := s.log ++ [.tmp s.n v, .yielded s.n] }
      | .await k => { s with ph := .awaiting, st := k }
      | .ret =>             -- `qcorogenerator.h:52-55`, `qcoroasyncgenerator.h:94-97`: mValue = nullptr
        { s with mem := s.dropOwn, cur := none, ph := .finished, log := s.log ++ [.finished] }
    | _ => s
  | .wake =>
    match s.ph with
    | .awaiting => { s with ph := .running }
    | _ => s
  | .keep =>
    if s.ph = .destroyed then { s with ub := some .gone } else
    match s.cur with
    | none => { s with ub := some .noValue }
    | some x => { s with kept := s.kept ++ [x], log := s.log ++ [.kept x] }
  | .get r =>
    if r = none ∧ s.ph = .destroyed then { s with ub := some .gone } else
    match s.target r with
    | none => if r = none then { s with ub := some .noValue } else s
    | some x =>
      match s.mem x with
      | some v => { s with log := s.log ++ [.got r x v] }
      | none => { s with ub := some .dead }
  | .set r v =>
    if r = none ∧ s.ph = .destroyed then { s with ub := some .gone } else
    match s.target r with
    | none => if r = none then { s with ub := some .noValue } else s
    | some x =>
      match s.mem x with
      | some _ => { s with mem := upd s.mem x (some v), log := s.log ++ [.put r x v] }
      | none => { s with ub := some .dead }
  | .outer v => { s with mem := upd s.mem s.n (some v), n := s.n + 1, log := s.log ++ [.outer s.n v] }
  | .outerSet x v =>
    match s.mem x, s.own x with
    | some _, false => { s with mem := upd s.mem x (some v), log := s.log ++ [.stored x v] }
    | _, _ => s
  | .outerEnd x =>
    match s.mem x, s.own x with
    | some _, false => { s with mem := upd s.mem x none, log := s.log ++ [.ended x] }
    | _, _ => s
  | .destroy =>    -- `qcorogenerator.h:255-259`, `qcoroasyncgenerator.h:298-302`
    match s.ph with
    | .running => { s with ub := some .misuse }
    | .destroyed => { s with ub := some .gone }
    | _ => { s with mem := s.dropOwn, cur := none, tmp := none, ph := .destroyed, log := s.log ++ [.destroyed] }

/-- Bookkeeping of the model, no counterpart in /repo. -/
def exec (code : σ → Stmt σ V) (st : σ) (ops : List (Op V)) : State σ V := ops.foldl (step code) { st := st }

theorem exec_snoc (code : σ → Stmt σ V) (st : σ) (ops : List (Op V)) (op : Op V) : exec code st (ops ++ [op]) = step code (exec code st ops) op := by
  simp [exec]

end QCoro.Yield
