import Verif.Signal.Model
/- Specification of signal waits over observable events. -/
namespace QCoro.Sig
variable {α : Type}

/-- A wait as its user sees it.  `waiting th k t0 ems dead`: begun on thread `th` at time `t0`, the signal was emitted
with `ems` (in order) since; `dead`: the object was already gone when the wait began. -/
inductive Ph (α : Type)
  | unborn
  | waiting (th : Nat) (k : Kind) (t0 : Nat) (ems : List α) (dead : Bool)
  | over

structure Spec (α : Type) where
  ph : Nat → Ph α := fun _ => .unborn
  alive : Bool := true

/-- An emission is seen by every wait in progress. -/
def Ph.saw (a : α) : Ph α → Ph α
  | .waiting th k t0 ems dead => .waiting th k t0 (ems ++ [a]) dead
  | p => p

def Spec.next (S : Spec α) : Ev α → Spec α
  | .awaited w th k now => { S with ph := upd S.ph w (.waiting th k now [] (!S.alive)) }
  | .emitted _ a => { S with ph := fun w => (S.ph w).saw a }
  | .destroyed => { S with alive := false }
  | .resumed w _ _ _ _ => { S with ph := upd S.ph w .over }

/-- Which events may happen.  A wait ends with `some a` only if `a` is the first emission since it began; it ends with
nothing only if the object was gone from the start, or it is still there and the (non-negative) timeout has elapsed. It continues on the
thread on which it was begun, and never inside an emission. -/
def Spec.ok (S : Spec α) : Ev α → Prop
  | .awaited w _ _ _ => (match S.ph w with | .unborn => True | _ => False)
  | .emitted _ _ => S.alive = true
  | .destroyed => S.alive = true
  | .resumed w th r now inEmit =>
    match S.ph w with
    | .waiting th' k t0 ems dead =>
      th = th' ∧ inEmit = false ∧
      (match r with
       | some a => dead = false ∧ ems.head? = some a
       | none => dead = true ∨ (S.alive = true ∧ 0 ≤ k.ms ∧ (t0 : Int) + k.ms ≤ now))
    | _ => False

def Spec.after (log : List (Ev α)) : Spec α := log.foldl Spec.next {}

theorem Spec.after_snoc (l : List (Ev α)) (e : Ev α) : Spec.after (l ++ [e]) = (Spec.after l).next e := by
  simp [Spec.after]

end QCoro.Sig
