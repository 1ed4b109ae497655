import Verif.Signal.Props
import Verif.Signal.Order
import Verif.Signal.Args
/-! # The theorems about signal waits applied to concrete runs: their hypotheses are met -/
namespace QCoro.Sig

/-- Two coroutines of thread 1 wait, one with a timeout; the signal is emitted twice from thread 2. -/
def wOps : List (Op Nat) := [.await 1 .plain, .await 1 (.timed 5), .emit 2 10, .emit 2 20, .process 1, .process 1, .process 1]

theorem wLog : (exec wOps).log =
    [.awaited 0 1 .plain 0, .awaited 1 1 (.timed 5) 0, .emitted 2 10, .emitted 2 20, .resumed 0 1 (some 10) 0 false, .resumed 1 1 (some 10) 0 false] := by decide

example : (emissions [.awaited 1 1 (.timed 5) 0, .emitted 2 10, .emitted 2 (20 : Nat)]).head? = some 10 :=
  C27_first_emission wOps [] _ [.resumed 1 1 (some 10) 0 false] 0 1 1 .plain 0 0 10 false wLog

example : resumes 0 (exec (wOps.take 4 ++ List.replicate 4 (.process 1))).log = 1 :=
  C27_delivered (wOps.take 4) (by decide) [] [.awaited 1 1 (.timed 5) 0, .emitted 2 10, .emitted 2 20] 0 1 .plain 0 (by decide) (by decide) 4 (by decide)

/-- A timeout that comes before the delivery of an emission. -/
def wLate : List (Op Nat) := [.await 1 (.timed 5), .time 5, .emit 2 10]

example : 0 ≤ (5 : Int) ∧ ((0 : Nat) : Int) + 5 ≤ (5 : Nat) :=
  C28_nullopt_only_on_timeout (wLate ++ [.fire 0]) [] [.emitted 2 10] [] 0 1 1 (.timed 5) 0 5 false (by decide) (by decide)

example : (exec (wLate ++ [.fire 0])).log = [.awaited 0 1 (.timed 5) 0, .emitted 2 10, .resumed 0 1 none 5 false] :=
  C28_timeout_ends_wait wLate (by decide) [] [.emitted 2 10] 0 1 5 0 (by decide) (by decide) (by decide) (by decide) (by decide)

example : resumes 1 [.emitted 2 10, .emitted 2 20, .resumed 0 1 (some (10 : Nat)) 0 false] = 0 ∧ resumes 1 ([] : List (Ev Nat)) = 0 :=
  C28_exactly_one wOps [.awaited 0 1 .plain 0] _ [] 1 1 1 (.timed 5) 0 0 (some 10) false wLog

example (post : List (Ev Nat)) : (exec ([.await 1 (.timed (-1)), .time 100000, .fire 0] : List (Op Nat))).log ≠
    [] ++ .awaited 0 1 (.timed (-1)) 0 :: ([] ++ .resumed 0 1 none 100000 false :: post) :=
  C28_negative_never_times_out _ [] [] post 0 1 1 (.timed (-1)) 0 100000 false (by decide) (by decide)

/-- The object is destroyed while a wait is pending; another one is begun later. -/
def wGone : List (Op Nat) := [.await 1 (.timed 5), .destroy, .time 100]

example : (exec (wGone ++ [.await 3 (.timed 7)])).log = (exec wGone).log ++ [.awaited 1 3 (.timed 7) 100, .resumed 1 3 none 100 false] :=
  C29_null_object wGone (by decide) (by decide) 3 (.timed 7)

example : (exec (wGone ++ [.await 3 .plain])).ub = some (.derefNullopt 1) := C29_plain_null_is_ub wGone (by decide) (by decide) 3

example : ∃ pre th t mid post now, (exec (wGone ++ [.await 3 .plain])).log = pre ++ .awaited 1 th .plain t :: (mid ++ .resumed 1 th none now false :: post) ∧
    (Spec.after pre).alive = false := C29_only_ub (wGone ++ [.await 3 .plain]) 1 (by decide)

example : resumes 0 [.awaited 1 3 (.timed 7) 100, .resumed 1 3 (none : Option Nat) 100 false] = 0 :=
  C29_destroyed_never_ends (wGone ++ [.await 3 (.timed 7)]) [] [] _ 0 1 (.timed 5) 0 (by decide) (by decide) (by decide)

example : 1 = 1 ∧ false = false := C30_thread wOps [] [.awaited 1 1 (.timed 5) 0, .emitted 2 10, .emitted 2 20] [.resumed 1 1 (some 10) 0 false] 0 1 1 .plain 0 0 (some 10) false wLog

example : ∃ k t, Ev.awaited 0 1 k t ∈ [.awaited 0 1 .plain 0, .awaited 1 1 (.timed 5) 0, .emitted 2 10, .emitted 2 (20 : Nat)] :=
  C30_begun wOps _ [.resumed 1 1 (some 10) 0 false] 0 1 0 (some 10) false wLog

example : ((exec (wOps.take 3)).ws 1).timer = some 5 :=
  C59_signal_timer (wOps.take 3) [.awaited 0 1 .plain 0] [.emitted 2 10] 1 1 (.timed 5) 0 (by decide) (by decide) (by decide)

example : resumes 0 ([] ++ .awaited 1 1 (.timed 5) 0 :: [.emitted 2 10, .emitted 2 20, .resumed 0 1 (some (10 : Nat)) 0 false]) = 1 :=
  C63_no_overtaking wOps [] [] _ [] 0 1 1 .plain (.timed 5) 0 0 10 0 false wLog

example : resumes 1 (exec (wOps.take 2 ++ [.emit 2 10] ++ List.replicate 2 (.process 1))).log = 1 :=
  C63_broadcast (wOps.take 2) (by decide) (by decide) 2 10 1 1 (.timed 5) 0 (by decide) 2 (by decide)

end QCoro.Sig

namespace QCoro.SigArgs

example : getValue ']' ("functionName() [T =".toList ++ [' '] ++ "QTimer::QPrivateSignal".toList ++ ']' :: []) = some (decide (qps <:+ "QTimer::QPrivateSignal".toList)) :=
  C32_type ']' ' ' _ _ [] (by decide) (by decide)

example : awaited [⟨⟨1, false⟩, 5⟩, ⟨⟨9, true⟩, 0⟩] = some (.one ⟨⟨1, false⟩, 5⟩) :=
  C31_public_args [⟨⟨1, false⟩, 5⟩, ⟨⟨9, true⟩, 0⟩] (by intro a ha; simp at ha; subst ha; rfl)

example : Result.tuple [⟨⟨1, false⟩, 0⟩, ⟨⟨2, false⟩, 1⟩] = .tuple [⟨⟨1, false⟩, 0⟩, ⟨⟨2, false⟩, 1⟩] :=
  C31_only_public [⟨⟨1, false⟩, 0⟩, ⟨⟨2, false⟩, 1⟩, ⟨⟨9, true⟩, 0⟩] _ (by decide)

end QCoro.SigArgs
