import Verif.Task.Trace

/-!
Specification of the execution of a coroutine body: the body as an ordinary sequential program that performs one action after the
other and is told the result of each.  The machine is not mentioned.
-/
namespace QCoro.Task
variable {σ V E : Type}

/-- What can be seen of the execution of a coroutine body from outside. -/
inductive TEv (V E : Type)
  | heard (r : Res V E)    -- a co_await or a call of waitFor in the body produced r (a value, or it threw)
  | said (n : Nat)         -- the body performed side effect n
  | ended (r : Res V E)    -- the body returned or threw
deriving DecidableEq, Repr

/-- What an event of the trace shows about the body of coroutine `c`; `cal w` is the coroutine that called waitFor for the `w`-th time. -/
def tev (c : Nat) (cal : Nat → Option Nat) : Ev V E → Option (TEv V E)
  | .gotReady a _ r => if a = c then some (.heard r) else none
  | .gotWoken a _ r => if a = c then some (.heard r) else none
  | .extRes a r => if a = c then some (.heard r) else none
  | .waitRet w r => if cal w = some c then some (.heard r) else none
  | .note a n => if a = some c then some (.said n) else none
  | .finished a r => if a = c then some (.ended r) else none
  | _ => none

/-- What was seen of the execution of the body of coroutine `c`. -/
def talk (c : Nat) (cal : Nat → Option Nat) (log : List (Ev V E)) : List (TEv V E) := log.filterMap (tev c cal)

/-- What can be seen of the body of a coroutine when its operation `a` is answered with `i`. -/
def hears : Option (UAct σ V E) → Resp V E → List (TEv V E)
  | some (.await _), .res r => [.heard r]
  | some (.awaitExt _), .res r => [.heard r]
  | some (.waitFor _ _), .res r => [.heard r]
  | _, _ => []

/-- What can be seen of the body of a coroutine when it performs `a`. -/
def shows : UAct σ V E → List (TEv V E)
  | .note n => [.said n]
  | .ret v => [.ended (.val v)]
  | .throw e => [.ended (.exc e)]
  | _ => []

/-- `i` is an answer of the right form to the operation the body performed last; a body that did nothing yet gets its arguments `i0`;
one that ended gets nothing any more. -/
def Fits (i0 : Resp V E) : Option (UAct σ V E) → Resp V E → Prop
  | none, i => i = i0
  | some (.ret _), _ => False
  | some (.throw _), _ => False
  | some (.call _ _ _ _), i => ∃ o, i = .obj o
  | some (.await _), i => ∃ r, i = .res r
  | some (.awaitExt none), i => ∃ r, i = .res r
  | some (.awaitExt (some r)), i => i = .res r
  | some (.drop _), i => i = .unit
  | some (.moveNew _), i => ∃ o, i = .obj o
  | some (.moveAssign _ _), i => i = .unit
  | some (.mkNull _), i => ∃ o, i = .obj o
  | some (.isReady _), i => ∃ b, i = .flag b
  | some (.waitFor _ _), i => ∃ r, i = .res r
  | some (.thenL _ _), i => ∃ o, i = .obj o
  | some (.thenR _ _), i => ∃ o, i = .obj o
  | some (.connect _ _ _), i => i = .unit
  | some (.delCtx _), i => i = .unit
  | some (.note _), i => i = .unit

/-- A point in the execution of a body: where it is, what it did last, what was seen so far. -/
structure Point (σ V E : Type) where
  st : σ
  last : Option (UAct σ V E)
  seen : List (TEv V E)

/-- The body is told `i` and goes on to its next action. -/
def Point.turn (P : Prog σ V E) (x : Point σ V E) (i : Resp V E) : Point σ V E :=
  ⟨(P.next x.st i).1, some (P.next x.st i).2, x.seen ++ hears x.last i ++ shows (P.next x.st i).2⟩

/-- The body `f`, called with arguments `i0`, can get to a point. -/
inductive Plays (P : Prog σ V E) (f : σ) (i0 : Resp V E) : Point σ V E → Prop
  | start : Plays P f i0 ⟨f, none, []⟩
  | turn {x} (h : Plays P f i0 x) (i : Resp V E) (hi : Fits i0 x.last i) : Plays P f i0 (x.turn P i)

end QCoro.Task
