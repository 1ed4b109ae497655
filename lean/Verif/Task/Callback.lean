/-
How `then` and `QCoro::connect` call the callable they are given: constraints, choice of the call and type of the result
(`qcoro/qcorotask.h:391-432`, `qcoro/impl/taskbase.h:78-200`, `qcoro/impl/connect.h:18-48`).  What the calls do at run time is in
`Verif.Task.Model`; here a callable is known by what it can be called with (`std::is_invocable`, `std::invoke_result`).
-/
namespace QCoro.Callback

/-- How the callable itself is named in the call: as an rvalue, an lvalue, a const lvalue (C++ value categories); no counterpart in /repo. -/
inductive Cat | rvalue | lvalue | const
deriving DecidableEq, Repr

/-- Argument types: the context object, a pointer to it, the result of the task (`qcoro/impl/connect.h:19,34`). -/
inductive Arg (Ty : Type)
  | object
  | pointer
  | value (t : Ty)
deriving DecidableEq, Repr

/-- Return types of callables: `void`, a value, or a (lazy) task; `isTask_v` tells the last (`qcoro/qcorotask.h:324-335`,
`qcoro/qcorolazytask.h:19-22`). -/
inductive Ret (Ty : Type)
  | void
  | plain (t : Ty)
  | task (lazy : Bool) (r : Option Ty)
deriving DecidableEq, Repr

/-- A callable of the user: `inv c args` is `std::invoke_result` of the callable named as `c`, absent if it is not invocable so;
`member`: it is a pointer to a member function (`std::is_member_function_pointer_v`, `qcoro/impl/connect.h:25,40`). -/
structure Callable (Ty : Type) where
  inv : Cat → List (Arg Ty) → Option (Ret Ty)
  member : Bool

/-- What the types know: implicit conversions between result types, and which types are default constructible. Models the user's
types, not code of /repo. -/
structure World (Ty : Type) where
  conv : Ty → Ty → Bool
  dflt : Ty → Bool

variable {Ty : Type}

/-- The result of the task as argument list: none for `Task<void>` (`qcoro/impl/taskbase.h:140-149`). -/
def valueArg : Option Ty → List (Arg Ty)
  | none => []
  | some t => [.value t]

/-- The `requires` clause of `then`, the callable passed as `c` (`qcoro/qcorotask.h:392,395`, `qcoro/impl/taskbase.h:80,89`). -/
def thenAccepts (f : Callable Ty) (c : Cat) (T : Option Ty) : Bool :=
  (f.inv c []).isSome || (T.isSome && (f.inv c (valueArg T)).isSome)

/-- `cb_invoke_result_t<ThenCallback, T>`: the return type without arguments if there is one (`qcoro/qcorotask.h:412-423`). -/
def resultType (f : Callable Ty) (c : Cat) (T : Option Ty) : Option (Ret Ty) :=
  match T with
  | none => f.inv c []
  | some t => if (f.inv c []).isSome then f.inv c [] else f.inv c [.value t]

/-- `invokeCb` (`qcoro/impl/taskbase.h:114-123`): the copy `thenCb` of the callable is an lvalue (`:136`); it is called with the value if
it can be. Absent: ill-formed. -/
def invokeCb (f : Callable Ty) (T : Option Ty) : Option (List (Arg Ty) × Ret Ty) :=
  if (f.inv .lvalue (valueArg T)).isSome then (f.inv .lvalue (valueArg T)).map (valueArg T, ·) else (f.inv .lvalue []).map ([], ·)

/-- `isTask<R>::return_type`, the value type of the new task (`qcoro/qcorotask.h:324-332`). -/
def Ret.payload : Ret Ty → Option Ty
  | .void => none
  | .plain t => some t
  | .task _ r => r

/-- Is `co_return` of an expression with value type `a` (none: void) well-formed in a task of type `r`?
`return_value`/`return_void` (`qcoro/impl/taskpromise.h:28-48,80`). -/
def storable (w : World Ty) : Option Ty → Option Ty → Bool
  | none, none => true
  | some a, some r => w.conv a r
  | _, _ => false

/-- Is the `co_return` of `thenImpl` well-formed: with `co_await` if the declared type is a task (`qcoro/impl/taskbase.h:146-150,158-162`).
Simplification: only a task can be co_awaited, and a task is converted to no other type. -/
def coReturnOk (w : World Ty) (R actual : Ret Ty) : Bool :=
  match R, actual with
  | .task _ r, .task _ a => storable w a r
  | .task _ _, _ => false
  | _, .task _ _ => false
  | R, a => storable w a.payload R.payload

/-- `handleException` needs a default constructed result (`qcoro/impl/taskbase.h:125-131`), in every instantiation of `then`. -/
def handlerOk (w : World Ty) (R : Ret Ty) : Bool :=
  match R.payload with
  | none => true
  | some t => w.dflt t

/-- What `then` is compiled to. `calledWith`: the arguments of the callback; `result`: the value type of the task it returns;
`lazy`: that is a LazyTask. -/
structure Compiled (Ty : Type) where
  calledWith : List (Arg Ty)
  result : Option Ty
  lazy : Bool
deriving DecidableEq, Repr

/-- Type of the returned task: the callback's own if that is a task, else one like the task `then` is called on
(`qcoro/impl/taskbase.h:135,168`). -/
def Ret.kind (lazy : Bool) : Ret Ty → Bool
  | .task l _ => l
  | _ => lazy

/-- `then(callback)` on a task of type `T` (`lazy`: a LazyTask), the callable passed as `c` (`qcoro/impl/taskbase.h:78-200`); absent:
the program is ill-formed. -/
def compileThen (w : World Ty) (f : Callable Ty) (c : Cat) (lazy : Bool) (T : Option Ty) : Option (Compiled Ty) :=
  if thenAccepts f c T then
    match resultType f c T, invokeCb f T with
    | some R, some (args, a) =>
      if coReturnOk w R a && handlerOk w R then some ⟨args, R.payload, R.kind lazy⟩ else none
    | _, _ => none
  else none

/-- The `requires` clause of `connect` (`qcoro/impl/connect.h:19`); `Callback` is a by-value parameter, an rvalue in the traits. -/
def connectAccepts (f : Callable Ty) (T : Option Ty) : Bool :=
  (f.inv .rvalue []).isSome || (T.isSome && (f.inv .rvalue (valueArg T)).isSome) || (f.inv .rvalue [.pointer]).isSome ||
    (T.isSome && (f.inv .rvalue (.pointer :: valueArg T)).isSome)

/-- `func(args…)` inside the lambda of `connect`, which is not mutable: `func` is const there (`qcoro/impl/connect.h:23,33`). A pointer
to member cannot be called so. -/
def callFunc (f : Callable Ty) (args : List (Arg Ty)) : Option (List (Arg Ty)) :=
  if !f.member && (f.inv .const args).isSome then some args else none

/-- `(ctxWatcher->*func)(args…)` (`qcoro/impl/connect.h:26,36,41`): only for a pointer to member of the context object. -/
def callMember (f : Callable Ty) (args : List (Arg Ty)) : Option (List (Arg Ty)) :=
  if f.member && (f.inv .const (.pointer :: args)).isSome then some (.pointer :: args) else none

/-- `connect(task, context, func)` (`qcoro/impl/connect.h:18-48`): the arguments of the call made when the task completes and the context
object is alive; absent: the program is ill-formed. -/
def compileConnect (f : Callable Ty) (T : Option Ty) : Option (List (Arg Ty)) :=
  if connectAccepts f T then
    match T with
    | none => if f.member then callMember f [] else callFunc f []
    | some t =>
      if (f.inv .rvalue [.object, .value t]).isSome then callMember f [.value t]
      else if (f.inv .rvalue [.value t]).isSome then callFunc f [.value t]
      else if f.member then callMember f [] else callFunc f []
  else none

end QCoro.Callback
