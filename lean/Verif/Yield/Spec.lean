import Verif.Yield.Model
/-
Specification for C82: objects, their values and lifetimes, and what iterators and references refer to, read off the history.
-/
namespace QCoro.Yield

variable {σ V : Type}

/-! ### Specification -/

/-- What an event writes to the object `x`. -/
def writes (x : Nat) : Ev V → Option V
  | .made y v | .tmp y v | .outer y v | .stored y v | .put _ y v => if y = x then some v else none
  | _ => none

/-- The value of the object `x`: the one last written to it, by whomever. -/
def value (x : Nat) (l : List (Ev V)) : Option V := (l.filterMap (writes x)).getLast?

/-- `x` is a local variable of the body, or a temporary of one of its co_yield expressions. -/
def Own (x : Nat) (l : List (Ev V)) : Prop := ∃ v, .made x v ∈ l ∨ .tmp x v ∈ l

/-- The lifetime of `x` is over: its scope has ended (or somebody has destroyed it); or it was the body's and the generator has finished or
was destroyed; or it was a temporary and the generator was resumed since. -/
def Over (x : Nat) (l : List (Ev V)) : Prop :=
  .ended x ∈ l ∨ (Own x l ∧ (.finished ∈ l ∨ .destroyed ∈ l)) ∨ ∃ p v q, l = p ++ .tmp x v :: q ∧ .resumed ∈ q

/-- How the last of these events changes what iterators point to. -/
def points : Ev V → Option (Option Nat)
  | .yielded x => some (some x)
  | .finished => some none
  | .destroyed => some none
  | _ => none

/-- The object an iterator points to: the one yielded last, if the generator has not finished since. -/
def pointee (l : List (Ev V)) : Option Nat := ((l.filterMap points).getLast?).join

/-- The objects the consumer keeps references to. -/
def keptObj : Ev V → Option Nat | .kept x => some x | _ => none
/-- The objects the consumer keeps references to. -/
def keptObjs (l : List (Ev V)) : List Nat := l.filterMap keptObj

/-- The object that the iterator, or the i-th kept reference, refers to. -/
def refers (l : List (Ev V)) : Option Nat → Option Nat
  | none => pointee l
  | some i => (keptObjs l)[i]?

/-- Is the generator suspended at a co_yield? The last event of this kind tells. -/
def turn : Ev V → Option Bool
  | .yielded _ => some true
  | .resumed => some false
  | .finished => some false
  | .destroyed => some false
  | _ => none

/-- Is the generator suspended at a co_yield? -/
def atYield (l : List (Ev V)) : Bool := ((l.filterMap turn).getLast?).getD false

end QCoro.Yield
