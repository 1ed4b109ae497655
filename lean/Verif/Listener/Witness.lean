import Verif.Listener.Props
import Verif.Listener.Ub
/-! # The theorems about signal listeners applied to concrete runs: their hypotheses are met -/
namespace QCoro.Listener

/-- The consumer is busy while two emissions are delivered and a third is posted. -/
def wBusy : List (Op Nat) := [.emit 1, .emit 2, .pause, .deliver, .deliver, .wake, .next]

example :=
  C33_nothing_lost (-1) (wBusy ++ [.emit 3]) (by decide) (by rw [show (exec (-1) (wBusy ++ [.emit 3])).log = [.emitted 1 0, .emitted 2 0, .next 0, .got (some 1) 0, .emitted 3 0] by decide]; simp [Going])

example : (exec (-1) (wBusy ++ [.next])).log = [.emitted 1 0, .emitted 2 0, .next 0, .got (some 1) 0, .next 0, .got (some 2) 0] :=
  (C33_backlog (-1) wBusy (by decide) (by rw [show (exec (-1) wBusy).log = [.emitted 1 0, .emitted 2 0, .next 0, .got (some 1) 0] by decide]; simp [Going])
    (by decide) (by decide) 2 (by decide)).1

/-- The consumer waits, the object emits. -/
def wWait : List (Op Nat) := [.next, .emit 1, .deliver, .next, .time 3, .emit 2]

example : (exec 5 (wWait ++ [.deliver])).log = [.next 0, .emitted 1 0, .got (some 1) 0, .next 0, .emitted 2 3, .got (some 2) 3] :=
  (C33_waiting 5 wWait (by decide) 0 ⟨[.next 0, .emitted 1 0, .got (some 1) 0], [.emitted 2 3], by decide, by simp [isGot]⟩ 2 (by decide)).1

/-- The documented use: the loop body awaits something else. -/
def wElse : List (Op Nat) := [.next, .pause, .emit 1, .deliver, .pause, .emit 2]

example : (exec (-1) (wElse ++ [.deliver])).ub = some .spuriousResume :=
  C33_busy_consumer_ub (-1) wElse (by decide) (by decide) (by decide) (by decide) (by decide)

example : (exec (-1) (wElse ++ [.deliver])).ub = some .spuriousResume :=
  (C33_ub_iff (-1) wElse (by decide)).2 (by decide)

example : (exec 5 ([.next, .emit 1, .deliver, .next, .time 5, .fire] ++ [.pause] : List (Op Nat))).ub = some .resumeDone :=
  (C34_ub_iff 5 [.next, .emit 1, .deliver, .next, .time 5, .fire] (by decide)).2 (by decide)

example : (exec (-1) (wElse ++ [.drop])).ub = none := C33_no_other_ub (-1) wElse .drop (by decide) (by simp)

example := C34_end_cause 5 ([.next, .emit 1, .deliver, .next, .time 5, .fire] : List (Op Nat)) [.next 0, .emitted 1 0, .got (some 1) 0, .next 0] [] 5 (by decide)

example : .got none 9 ∉ (exec (-1) ([.next, .emit 1, .deliver, .next, .time 9, .fire] : List (Op Nat))).log :=
  C34_no_timeout_never_ends (-1) (by decide) _
    (by rw [show (exec (-1) ([.next, .emit 1, .deliver, .next, .time 9, .fire] : List (Op Nat))).log = [.next 0, .emitted 1 0, .got (some 1) 0, .next 0] by decide]; simp) 9

example : (exec 5 ([.next, .emit 1, .deliver, .next, .time 7] ++ [.fire] : List (Op Nat))).log = [.next 0, .emitted 1 0, .got (some 1) 0, .next 0, .got none 7] :=
  (C34_times_out 5 (by decide) [.next, .emit 1, .deliver, .next, .time 7] (by decide) 0 ⟨[.next 0, .emitted 1 0, .got (some 1) 0], [], by decide, by simp⟩
    (by rw [show (exec 5 ([.next, .emit 1, .deliver, .next, .time 7] : List (Op Nat))).log = [.next 0, .emitted 1 0, .got (some 1) 0, .next 0] by decide]; simp) (by decide)).1

example : ∀ e ∈ ([] : List (Ev Nat)), isGot e = false :=
  C34_destroyed_hangs 5 [.next, .emit 1, .deliver, .next, .destroyObj, .time 9, .fire] [.next 0, .emitted 1 0, .got (some 1) 0] [] [] 0 0 (by decide) (by simp) (by decide)

/-- The consumer awaits something else only before its first begin(). -/
example : (exec 5 [.pause, .emit (1 : Nat), .deliver, .wake, .next, .next]).ub = none := by
  apply C33_safe_if_only_iterating
  intro p q h
  left
  intro n
  have : p = [] := by
    cases p with
    | nil => rfl
    | cons a p =>
      exfalso
      simp at h
      have : Op.pause ∈ [Op.emit (1 : Nat), .deliver, .wake, .next, .next] := by rw [h.2]; simp
      simp at this
  subst this; simp [exec]

end QCoro.Listener
