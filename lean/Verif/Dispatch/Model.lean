/-
What `co_await operand` does in each kind of coroutine: overload resolution among the three `await_transform` functions of
`TaskPromiseBase` (`qcoro/qcorotask.h:146-155`, `qcoro/impl/taskpromisebase.h:30-43`) with the concepts of `qcoro/coroutine.h:263-296`;
`QCoro::connect` on awaitables (`qcoro/impl/connect.h:52-59`) and `toTask` (`qcoro/impl/waitfor.h:22-26`); which awaiter and which `qCoro()` wrapper
belongs to a Qt class, given the included headers.

The C++ rules used are modelled too: deduction of `T &&` and `T &`, ranking of reference bindings ([over.ics.rank]), partial ordering of `T &`
before `T &&` ([temp.deduct.partial]), nearest base class ([over.ics.rank]), and a call without a best candidate is an error.  (The tables of
`overload` and `wrapper` were compared with g++ 13 on stand-alone declarations.)
-/
namespace QCoro.Dispatch

/-- Constness and value category of an operand (C++ [basic.lval]); no counterpart in /repo. -/
structure Expr where
  const : Bool
  rvalue : Bool
deriving DecidableEq, Repr

/-- What C++ knows about the operand's type `X`. Models the user's types, not code of /repo.
`registered`: `awaiter_type<X>` is specialised; `fromValue e`: that awaiter can be constructed from `e`;
`member e`, `nonmember e`: `e.operator co_await()`, `operator co_await(e)` is well-formed;
`methods c`: (const) `X` has await_ready() returning exactly bool, await_suspend() and await_resume();
`usable c`: it has them as the language requires (await_ready() convertible to bool);
`dflt`: default constructible. -/
structure Ty where
  registered : Bool := false
  fromValue : Expr → Bool := fun _ => false
  member : Expr → Bool := fun _ => false
  nonmember : Expr → Bool := fun _ => false
  methods : Bool → Bool := fun _ => false
  usable : Bool → Bool := fun _ => false
  dflt : Bool := true

/-- What the language itself can co_await ([expr.await]), without library. Models C++, not code of /repo. -/
def Ty.direct (x : Ty) (e : Expr) : Bool := x.member e || x.nonmember e || x.usable e.const

/-- `Awaitable<U>` (`qcoro/coroutine.h:263-296`) for `U` = (const) `X`, or a reference to it if `ref`. In the requires-expression the parameter is
an lvalue, except that the non-member operator gets `static_cast<U &&>(t)`. -/
def Ty.isAwaitable (x : Ty) (c ref : Bool) : Bool :=
  x.member ⟨c, false⟩ || x.nonmember ⟨c, !ref⟩ || x.methods c

/-- The three functions (`qcoro/impl/taskpromisebase.h:30`, `:35`, `:40`). -/
inductive Overload
  | registered   -- template<T, Awaiter = awaiter_type_t<remove_cvref_t<T>>> await_transform(T &&)
  | forward      -- template<Awaitable T> await_transform(T &&)
  | lvalue       -- template<Awaitable T> await_transform(T &)
deriving DecidableEq, Repr

/-- Candidate functions in order of declaration (`qcoro/qcorotask.h:146-155`). -/
def overloads : List Overload := [.registered, .forward, .lvalue]

/-- Deduction succeeds, the constraints hold and the reference can be bound (`qcoro/qcorotask.h:146-155`). -/
def viable (x : Ty) (e : Expr) : Overload → Bool
  | .registered => x.registered
  | .forward => x.isAwaitable e.const (!e.rvalue)
  | .lvalue => (!e.rvalue || e.const) && x.isAwaitable e.const false

/-- Is the first candidate better than the second?  An rvalue rather binds to an rvalue reference; for an lvalue `T &` is more specialised than
`T &&`; the two `T &&` have different template parameter lists, neither is better. Models C++, not code of /repo. -/
def beats (e : Expr) : Overload → Overload → Bool
  | .registered, .lvalue | .forward, .lvalue => e.rvalue
  | .lvalue, .registered | .lvalue, .forward => !e.rvalue
  | _, _ => false

/-- The overload called by `await_transform(e)`; absent: none is viable, or the call is ambiguous. Models C++, not code of /repo. -/
def overload (x : Ty) (e : Expr) : Option Overload :=
  overloads.find? (fun o => viable x e o && overloads.all (fun p => p == o || !viable x e p || beats e o p))

/-- Whose await_ready(), await_suspend(), await_resume() are called.
The awaiter of `awaiter_type` (`qcoro/impl/taskpromisebase.h:32`), an object made by operator co_await, the operand itself (`:37`, `:42`). -/
inductive Used | qtAwaiter | fromOperator | itself
deriving DecidableEq, Repr

/-- The language's co_await on `e`. Models C++ ([expr.await]), not code of /repo. Simplification: a member and a non-member operator that both
apply are not ambiguous. -/
def Ty.plain (x : Ty) (e : Expr) : Option Used :=
  if x.member e || x.nonmember e then some .fromOperator else if x.usable e.const then some .itself else none

/-- Kinds of coroutines, by return type (`qcoro/qcorotask.h:464`, `qcoro/qcorolazytask.h:24`, `qcoro/qcorogenerator.h:136`, `qcoro/qcoroasyncgenerator.h:268`). -/
inductive Kind | task | lazyTask | generator | asyncGenerator
deriving DecidableEq, Repr

/-- `co_await e` in a Task or LazyTask coroutine (`qcoro/impl/taskpromisebase.h:30-43`); absent: the program is ill-formed. The result of the two
last functions refers to the operand, with its constness and value category. -/
def inTask (x : Ty) (e : Expr) : Option Used :=
  match overload x e with
  | some .registered => if x.fromValue e then some .qtAwaiter else none
  | some .forward => x.plain e
  | some .lvalue => x.plain ⟨e.const, false⟩
  | none => none

/-- `co_await e` in a coroutine of kind `k`: `AsyncGeneratorPromise` has no await_transform, that of `GeneratorPromise` is deleted
(`qcoro/qcorogenerator.h:122-123`); once there is one, the language never falls back to the operand itself. -/
def coAwait (x : Ty) (e : Expr) : Kind → Option Used
  | .task | .lazyTask => inTask x e
  | .asyncGenerator => x.plain e
  | .generator => none

/-! ### connect() on awaitables -/

/-- `TaskConvertible<U>` (`qcoro/qcorotask.h:475-479`): the parameter is an lvalue. -/
def convertible (x : Ty) (c : Bool) : Bool := (overload x ⟨c, false⟩).isSome

/-- `convertible_awaitable_return_type_t<U>` is well-formed (`qcoro/qcorotask.h:499-501`): `U()` exists – it does not for a reference `U` –, and
await_transform takes it. -/
def hasReturnType (x : Ty) (c ref : Bool) : Bool := convertible x c && !ref && x.dflt && (overload x ⟨c, true⟩).isSome

/-- What the callback takes: nothing (but possibly the context), the result. Models user code. -/
structure Cb where
  noArg : Bool
  withValue : Bool

/-- The constraint of `connect(T &&future, …)` (`qcoro/impl/connect.h:53-55`) for an operand that is no Task rvalue. -/
def connectAccepts (x : Ty) (e : Expr) (cb : Cb) : Bool :=
  convertible x e.const && (cb.noArg || (hasReturnType x e.const (!e.rvalue) && cb.withValue))

/-- `connect(e, context, callback)` compiles (`qcoro/impl/connect.h:56-59`): `toTask(std::move(future))` needs the return type, and its
`co_await future` awaits an lvalue (`qcoro/impl/waitfor.h:22-26`). The awaiter used, if so. -/
def connect (x : Ty) (e : Expr) (cb : Cb) : Option Used :=
  if connectAccepts x e cb && hasReturnType x e.const false then inTask x ⟨e.const, false⟩ else none

/-- What is touched when the converted task is resumed after `connect` has returned (`qcoro/impl/waitfor.h:23`: the parameter of `toTask` is a
reference): an awaiter in the frame of `toTask`, or the operand of `connect`, which is dead by then if it was a temporary. -/
def touchesDead (u : Used) (e : Expr) : Bool := u == .itself && e.rvalue

/-! ### Qt classes -/

/-- Headers a translation unit may include (`qcoro/core/qcoro*.h`, `qcoro/network/qcoro*.h`). -/
inductive Header | ioDevice | process | abstractSocket | localSocket | networkReply | timer
deriving DecidableEq, Repr

/-- Included, directly or by another header (`qcoro/core/qcoroprocess.h:8`, `qcoro/network/qcoroabstractsocket.h:8`, `qcorolocalsocket.h:8`,
`qcoronetworkreply.h:7`). -/
def visible (hs : List Header) (h : Header) : Bool :=
  hs.contains h || (h == .ioDevice && (hs.contains .process || hs.contains .abstractSocket || hs.contains .localSocket || hs.contains .networkReply))

/-- Qt classes named in overloads and specialisations; `user n`: any other class. No counterpart in /repo. -/
inductive Cls | ioDevice | process | abstractSocket | localSocket | networkReply | timer | user (n : Nat)
deriving DecidableEq, Repr

/-- A class hierarchy: `base c` are the base classes of `c`, itself included, nearest first (single inheritance). Models user code and Qt. -/
structure Hierarchy where
  base : Cls → List Cls

/-- Type of an operand: pointer to class, or object of a class. No counterpart in /repo. -/
inductive Form | ptr | obj
deriving DecidableEq, Repr

/-- Awaiters of Qt objects (`qcoro/core/qcoroiodevice.h:56`, `qcoro/core/qcorotimer.h:20`, `qcoro/network/qcoronetworkreply.h:16`). -/
inductive Awaiter | readAll | timeout | finished
deriving DecidableEq, Repr

/-- `awaiter_type<C *>`, `awaiter_type<C>` (`qcoro/core/qcoroiodevice.h:203-210`, `qcoro/core/qcorotimer.h:43-51`,
`qcoro/network/qcoronetworkreply.h:79-82`): a full specialisation comes before the constrained partial one. -/
def awaiterType (H : Hierarchy) (hs : List Header) (f : Form) (c : Cls) : Option Awaiter :=
  if c == .timer && visible hs .timer then some .timeout
  else if f == .ptr && c == .networkReply && visible hs .networkReply then some .finished
  else if (H.base c).contains .ioDevice && visible hs .ioDevice then some .readAll
  else none

/-- The wrappers returned by `qCoro()` (`qcoro/core/qcoroiodevice.h:223-229`, `qcoro/core/qcoroprocess.h:123-129`,
`qcoro/network/qcoroabstractsocket.h:121-127`, `qcorolocalsocket.h:122-128`, `qcoronetworkreply.h:68-74`, `qcoro/core/qcorotimer.h:85-92`), by class. -/
def headerOf : Cls → Option Header
  | .ioDevice => some .ioDevice
  | .process => some .process
  | .abstractSocket => some .abstractSocket
  | .localSocket => some .localSocket
  | .networkReply => some .networkReply
  | .timer => some .timer
  | .user _ => none

/-- Is there a `qCoro` overload for this form and class?  Defined by its header; the pointer overloads of three classes are declared, without
return type, by `qcoro/core/qcoroiodevice.h:237-242`. -/
def declared (hs : List Header) (f : Form) (c : Cls) : Bool :=
  match headerOf c with
  | none => false
  | some h => visible hs h || (f == .ptr && visible hs .ioDevice && (c == .abstractSocket || c == .localSocket || c == .networkReply))

/-- `qCoro(p)` for `p` of form `f` and class `c`: of the overloads for base classes the nearest is the best; an overload that is only declared
is an error (its return type is not known). The class of the wrapper; absent: the program is ill-formed. -/
def wrapper (H : Hierarchy) (hs : List Header) (f : Form) (c : Cls) : Option Cls :=
  match (H.base c).find? (declared hs f) with
  | none => none
  | some b =>
    match headerOf b with
    | some h => if visible hs h then some b else none
    | none => none

end QCoro.Dispatch
