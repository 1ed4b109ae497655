import Verif.Threads.Props
import Verif.Threads.WaitFor
/-! # The theorems about threads applied to concrete interleavings: their hypotheses are met -/

set_option maxRecDepth 16000

namespace QCoro.RefCount
/-- Three threads share a coroutine; the last reference goes in thread 3. -/
def shared : List Op := [.ref 0 1, .ref 1 2, .deref 1, .pass 2 3, .deref 0, .deref 3]
example := C57_not_early [.ref 0 1, .ref 1 2, .deref 1] (by decide)
example := C57_destroyed shared (by decide)
example := C57_destroyed (shared ++ [.destroy 3]) (by decide)
example := C57_by_a_releaser (shared ++ [.destroy 3]) 3 (by decide)
end QCoro.RefCount

namespace QCoro.CrossAwait
/-- Awaiter 1 registers in time; awaiter 2 registers after `final_suspend` copied the awaiters; awaiter 3 finds the task done. -/
def race : List Op := [.check 1, .add 1, .snap, .check 2, .mark, .check 3, .resume, .add 2]
example := (C58_continues_iff_not_missed race 1 (by decide) (by decide))
example := (C58_continues_iff_not_missed race 2 (by decide) (by decide))
/-- Awaiter 2 came too late. -/
theorem missed2 : Missed race 2 := by
  exact ⟨[.check 1, .add 1], [.check 2, .mark, .check 3, .resume], [], by decide, by decide, by decide⟩
example (ops' : List Op) : (exec (race ++ ops')).cont.count 2 = 0 := C58_lost_for_ever race ops' 2 missed2
end QCoro.CrossAwait

namespace QCoro.Move
example := C43_only_target_loop .fresh false [.target, .start, .home] .target (by decide)
example (ops' : List Op) : (run .running false ([.home, .start] ++ .target :: ops')).ran = [true] := C43_running [.home, .start] ops' (by decide)
example (ops' : List Op) : (run .fresh false ([.home, .target] ++ .start :: [.target] ++ .home :: [.start] ++ .target :: ops')).ran = [true] :=
  C43_started_later [.home, .target] [.target] [.start] ops' (by decide) (by decide) (by decide)
example := C43_not_before_start [.home, .target, .finish] (by decide)
example := C43_finished_hangs false [.home, .target, .finish] (by decide)
example := C43_late_start_lost [.home, .target, .start] (by decide)
end QCoro.Move

namespace QCoro.WaitCross
/-- The waiting thread enters its loop before the coroutine completes. -/
def inTime : List Op := [.check, .enter, .store, .flag, .quit]
/-- `quit()` comes between the check of the flag and the entry of the loop. -/
def tooEarly : List Op := [.check, .store, .flag, .quit, .enter]
theorem early : Before .quit .enter (exec 7 tooEarly).log := ⟨[.check, .store, .flag, .quit], [], by decide, by decide⟩
theorem intime : ¬ Before .quit .enter (exec 7 inTime).log := by
  have nil : ¬ Before .quit .enter [] := by rintro ⟨p, q, e, -⟩; simp at e
  have h : (exec 7 inTime).log = ((((([] ++ [.check]) ++ [.enter]) ++ [.store]) ++ [.flag]) ++ [.quit]) := by decide
  rw [h, before_snoc, before_snoc, before_snoc, before_snoc, before_snoc]
  simp [nil]
example : (exec 7 (inTime ++ [.look, .leave])).got = some (some 7) := (C73_hangs_iff 7 inTime (by decide) (by decide)).2 intime
example (more : List Op) : (exec 7 (tooEarly ++ more)).got = none := (C73_hangs_iff 7 tooEarly (by decide) (by decide)).1.1 early more
example := C73_result 7 (inTime ++ [.look, .leave]) (some 7) (by decide)
example := C73_hang_window 7 tooEarly early
example := C73_atomic 7 [.check, .enter] [.look, .leave] (by decide) (by decide) (by decide)
end QCoro.WaitCross
