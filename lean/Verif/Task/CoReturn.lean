/-
What `co_return operand;` does in a `Task<T>` coroutine: overload resolution among the four `return_value` functions of
`TaskPromise<T>` (`qcoro/qcorotask.h:209-224`, `qcoro/impl/taskpromise.h:28-48`) and the effect on the operand.

The C++ rules used are modelled too: viability of a reference binding, the ranking of reference bindings
([over.ics.rank]), non-template before template and partial ordering of the two templates ([over.match.best]), and the choice of
the alternative in `std::variant`'s converting assignment.  A local variable named in `co_return` is an rvalue
expression (implicit move), everything else named is an lvalue.
-/
namespace QCoro.CoReturn

/-- Constness and value category of the operand of `co_return` (C++ [basic.lval]); no counterpart in /repo. -/
structure Expr where
  const : Bool
  rvalue : Bool
deriving DecidableEq, Repr

/-- What ends up in `TaskPromise::mValue` (`qcoro/qcorotask.h:236-238`), or that storing it has thrown an exception. -/
inductive Stored (T : Type)
  | value (t : T)      -- the alternative `T`
  | exc                -- the alternative `std::exception_ptr`: every co_await on the Task will throw
  | thrown             -- a constructor of user code threw
deriving DecidableEq, Repr

/-- What C++ knows about the type `X` of the operand and the result type `T` of the coroutine. Models the user's types, not
code of /repo: `constructible e` is `std::is_constructible_v<T, E>` for an expression `e` of type `X`, `implicit e` is
`std::is_convertible_v`, `init e` is the effect of `mValue = e` (what is stored and what is left of the operand), absent if
no alternative, or no unique one, can be initialised from it. -/
structure Types (X T : Type) where
  same : Bool
  constructible : Expr → Bool
  implicit : Expr → Bool
  init : Expr → Option (X → Stored T × X)

/-- The four overloads (`qcoro/qcorotask.h:215-224`). -/
inductive Overload
  | ownRvalue      -- return_value(T &&)
  | ownConst       -- return_value(const T &)
  | anyForward     -- template<U> return_value(U &&)
  | anyConst       -- template<U> return_value(const U &)
deriving DecidableEq, Repr

/-- Candidate functions in order of declaration (`qcoro/qcorotask.h:215-224`). -/
def overloads : List Overload := [.ownRvalue, .ownConst, .anyForward, .anyConst]

variable {X T : Type}

/-- Is the overload viable for the operand?  `T &&` binds to nothing but a non-const rvalue of type `T` or a temporary converted
from another type; the templates (`qcoro/impl/taskpromise.h:39`, `:45`) are constrained by `constructible_from<T, U>`, with
`U` = the operand's type, as lvalue reference if a forwarding reference binds to an lvalue. -/
def viable (r : Types X T) (e : Expr) : Overload → Bool
  | .ownRvalue => if r.same then e.rvalue && !e.const else r.implicit e
  | .ownConst => r.same || r.implicit e
  | .anyForward => r.constructible e
  | .anyConst => r.constructible ⟨false, true⟩

/-- Does the overload take its argument by rvalue reference?  (`qcoro/impl/taskpromise.h:29,34,40,46`; a forwarding reference to an
lvalue is an lvalue reference.) -/
def takesRvalue (e : Expr) : Overload → Bool
  | .ownRvalue => true
  | .ownConst => false
  | .anyForward => e.rvalue
  | .anyConst => false

/-- Rank of a viable overload ([over.ics.rank], [over.match.best]), the smallest wins. By weight: a conversion is needed; an lvalue
reference is bound to an rvalue; constness is added; it is a template; it is the less specialised template.
Models C++, not code of /repo; the signatures are those of `qcoro/impl/taskpromise.h:29,34,40,46`. -/
def rank (r : Types X T) (e : Expr) (o : Overload) : Nat :=
  (match o with | .ownRvalue | .ownConst => (!r.same).toNat * 16 | .anyForward | .anyConst => 0) +
  (e.rvalue && !takesRvalue e o).toNat * 8 +
  (match o with | .ownConst | .anyConst => (!e.const).toNat * 4 | .ownRvalue | .anyForward => 0) +
  (match o with | .ownRvalue | .ownConst => 0 | .anyForward => 3 | .anyConst => 2)

/-- The better of two candidates. Models C++, not code of /repo. -/
def better (r : Types X T) (e : Expr) (a : Option Overload) (o : Overload) : Option Overload :=
  match a with
  | none => if viable r e o then some o else none
  | some b => if viable r e o && decide (rank r e o < rank r e b) then some o else some b

/-- Overload resolution for `return_value(operand)`; absent: no viable function. Models C++, not code of /repo. -/
def resolve (r : Types X T) (e : Expr) : Option Overload := overloads.foldl (better r e) none

/-- The body of the overload: the expression from which `mValue` is assigned (`qcoro/impl/taskpromise.h:28-48`).
`emplace<T>(std::forward<T>(value))`, `mValue = value`, `mValue = std::move(value)`, `mValue = value`. -/
def source (e : Expr) : Overload → Expr
  | .ownRvalue => ⟨false, true⟩
  | .ownConst => ⟨true, false⟩
  | .anyForward => ⟨e.const, true⟩
  | .anyConst => ⟨true, false⟩

/-- The process state after `co_return`: all four functions are `noexcept` (`qcoro/impl/taskpromise.h:29,34,40,46`), so an
exception thrown while storing terminates the process. -/
inductive After (X T : Type)
  | completed (s : Stored T) (left : X)
  | terminated
deriving DecidableEq, Repr

/-- `co_return operand;` with the operand's value `x` (`qcoro/impl/taskpromise.h:28-48`); absent: the program is ill-formed. -/
def coReturn (r : Types X T) (e : Expr) (x : X) : Option (After X T) :=
  match resolve r e with
  | none => none
  | some o =>
    match r.init (source e o) with
    | none => none
    | some f =>
      match (f x).1 with
      | .thrown => some .terminated
      | s => some (.completed s (f x).2)

end QCoro.CoReturn
