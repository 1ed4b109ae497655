import Verif.Qml.Task
import Verif.Qml.Image
/-! # The theorems about QmlTask and ImageProvider applied to concrete runs: their hypotheses are met -/
namespace QCoro.QmlTask

/-- A `.then` callback, two listeners (one with an intermediate value); the Task completes, the callback kills a listener and drops the handle. -/
def wRun : List Op := [.then_ true, .await (.val 1), .await .invalid, .finish (some (.val 7)), .then_ true, .kill 1, .drop]

example : ok [.attached 0 .js, .preset 1 (.val 1), .attached 1 .listener, .attached 2 .listener, .finished (some (.val 7))] (.called 0 (.val 7)) :=
  C55_history false wRun _ _ [.attached 3 .js, .called 3 .invalid, .killed 1] (by decide)

example : ∃ e, (exec false (wRun ++ List.replicate 4 .next)).log.filter (isTurn 2) = [e] ∧ (e = .set 2 .invalid ∨ e = .skipped 2) :=
  C55_answered false wRun 4 (some (.val 7)) 2 .listener (by decide) (by decide) (by decide) (by decide)

example : ∃ e, (exec false (wRun ++ List.replicate 4 .next)).log.filter (isTurn 0) = [e] ∧ e = .called 0 (.val 7) :=
  C55_answered false wRun 4 (some (.val 7)) 0 .js (by decide) (by decide) (by decide) (by decide)

example : (exec false ([.then_ true, .await (.val 1)] ++ List.replicate 1 .drop ++ [.finish (some (.val 7)), .next])).log =
    (exec false ([.then_ true, .await (.val 1)] ++ [.finish (some (.val 7)), .next])).log :=
  (C55_drop_harmless false _ _ 1 (by decide)).1

example : exec false ([.then_ true, .await .invalid] ++ [.then_ false]) = { exec false [.then_ true, .await .invalid] with log := [.attached 0 .js, .attached 1 .listener, .warned] } :=
  C55_diagnosed false [.then_ true, .await .invalid] false (by decide) (by decide) (by decide)

example : ∃ t, (exec false ([.await (.val 1), .finish (some (.val 3))] ++ [.then_ true])).log =
    [.preset 0 (.val 1), .attached 0 .listener, .finished (some (.val 3)), .set 0 (.val 3)] ++ .attached 1 .js :: t ∧ attachedN t = 0 :=
  (C55_attaches [.await (.val 1), .finish (some (.val 3))] (by decide) (by decide)).1 (by decide)

example : ∃ t, (exec false (wRun ++ [.next, .next])).log = (exec false wRun).log ++ t ∧
    (exec false (wRun ++ [.next, .next])).val 2 = ((results 2 t).getLast?).getD ((exec false wRun).val 2) :=
  C64_changes false wRun [.next, .next] 2 .listener (by decide)

example : (exec false ([.then_ true, .await (.val 1)] ++ [.await (.val 5)])).val 2 = .val 5 :=
  C64_intermediate [.then_ true, .await (.val 1)] (.val 5) (by decide) (by decide)
    (by rw [show (exec false [.then_ true, .await (.val 1)]).log = [.attached 0 .js, .preset 1 (.val 1), .attached 1 .listener] by decide]; simp)

end QCoro.QmlTask

namespace QCoro.ImageProvider

example : (exec [.request, .cancel, .produce 3]).log.count .finished = 1 := (C56_finished_once [.request, .cancel, .produce 3] (by decide) (by decide)).1 ⟨3, by decide⟩

example : (exec [.produce 3, .request, .cancel]).image = some 3 := C56_image [.produce 3, .request, .cancel] 3 (by decide) (by decide)

example : .finished ∉ (exec [.request, .cancel, .throw_]).log := C56_failure_never_finishes [.request, .cancel, .throw_] (by decide)

example : (exec ([.request, .cancel, .delete] ++ [.produce 3])).ub = true :=
  C56_deleted_uaf [.request, .cancel, .delete] (by decide) (by decide) 3 (by rw [show (exec [.request, .cancel, .delete]).log = [.requested, .cancelled, .deleted] by decide]; simp) (by decide)

end QCoro.ImageProvider
