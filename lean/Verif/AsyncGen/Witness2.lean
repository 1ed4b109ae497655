import Verif.AsyncGen.Owner
import Verif.AsyncGen.Depth
import Verif.AsyncGen.Told
import Verif.AsyncGen.PipeDemo
import Verif.AsyncGen.Witness
/-! # The theorems about asynchronous generators applied to concrete runs: their hypotheses are met -/
namespace QCoro.AGen

set_option maxRecDepth 32000

theorem at_ {l : List (Ev V E)} (n e) (h : l[n]? = some e) : l = l.take n ++ e :: l.drop (n + 1) := by
  obtain ⟨hn, h⟩ := List.getElem?_eq_some_iff.1 h
  have := (List.take_append_drop n l).symm
  rw [List.drop_eq_getElem_cons hn, h] at this
  exact this

theorem at2 {l : List (Ev V E)} (n m e f) (h : l[n]? = some e) (h2 : l[n + 1 + m]? = some f) :
    l = l.take n ++ e :: ((l.drop (n + 1)).take m ++ f :: (l.drop (n + 1)).drop (m + 1)) := by
  have h3 : (l.drop (n + 1))[m]? = some f := by rw [List.getElem?_drop]; exact h2
  have := at_ n e h
  rw [at_ m f h3] at this
  exact this

/-- A loop over a generator of two values, until it ends. -/
def loop : List (Op DS) := .spawn (.p 200) :: demo_ops
/-- A loop over a generator that throws after its first value. -/
def throws : List (Op DS) := .spawn (.p 300) :: [.tick, .tick, .tick, .tick, .tick, .tick, .ext 0, .tick, .tick, .tick]
/-- A generator object is assigned another one, and destroyed. -/
def owner : List (Op DS) := [.spawn (.p 600), .tick, .tick, .tick, .tick, .tick, .tick]
/-- A generator is destroyed while it awaits something. -/
def gone : List (Op DS) := [.spawn (.p 200), .tick, .tick, .tick, .spawn (.p 500), .tick, .tick]

example := C23_reported demo loop (by decide) 1
example := C24_consumer_suspended demo loop _ _ _ 1 0 (.inc 0) (at2 19 3 _ (.ran 0) (by decide) (by decide))
example := C24_producer_suspended demo loop _ _ _ 1 0 (.got 1 0 0) rfl (at2 10 9 _ (.ran 1) (by decide) (by decide))
example := C24_nothing_before_begin demo loop _ _ _ 1 0 (at2 2 2 _ (.ran 1) (by decide) (by decide))
example : (Spec.after ((exec demo throws).log.take 19)).ph 1 = .failed 7 0 := (C25_exception_reported demo throws _ _ 1 0 (.inc 0) 7 (at_ 19 _ (by decide))).1
example := C25_immediate demo throws (by decide) _ _ 1 7 (at_ 18 _ (by decide))
example := C26_dead_stays_dead demo gone _ _ 1 0 (at_ 9 _ (by decide))
example := C26_dead_stays_dead demo owner _ _ 2 0 (at_ 8 _ (by decide))
theorem notDropped {l : List (Ev DV DE)} {g : Nat} (h : l.all (fun | .dropped _ (some x) => x != g | _ => true) = true) (o : Nat) : Ev.dropped o (some g) ∉ l := by
  intro hm
  have := List.all_eq_true.1 h _ hm
  simp at this
example := C26_owned demo loop (by decide) 1 0 (by decide) (notDropped (by decide)) (by decide)
example := C26_drop_destroys_owned demo owner _ _ 0 (some 2) (at_ 8 _ (by decide))
example : ∀ o, Ev.dropped o (some 1) ∉ (exec demo owner).log := C26_overwritten_leaks demo owner _ _ 0 1 1 (at_ 6 _ (by decide)) (by decide)
example := C26_ub_iff_misuse demo (loop.take 3) 1 (.p 0) (by decide) (by decide) (by rfl)
example : (exec demo (gone ++ [.ext 1])).ub ≠ none := (C26_completion_ub_iff demo gone 1 (by decide)).1.2 ⟨by decide, 0, by decide⟩
example : (exec demo (gone ++ [.ext 1])).ub = some (.resumeDestroyed 1) := C26_destroyed_while_awaiting_ub demo gone _ _ 0 1 (by decide) (at_ 9 _ (by decide)) (by decide)
example : (exec demo loop).stack.length ≤ 1 := C84_async_flat demo loop (by decide)
example := C84_async_no_reentry demo loop (by decide)
example := C24_told demo loop (by decide) 1

/-- What is written through the iterator is what co_yield gives. -/
def toldOps : List (Op Nat) := .spawn 0 :: List.replicate 5 .tick
example := C24_told writer toldOps (by decide) 1
example : ((exec writer (toldOps ++ [.tick])).fr 1).st = some (writer.next 11 (.resumed 8)).1 := by
  have := C24_resumes_where_it_stopped writer toldOps .tick (by decide) 1 11 (by decide) (by decide)
  have h1 : (exec writer toldOps).stack = [1] := by decide
  have h2 : ((exec writer toldOps).fr 1).inp = .resumed 8 := by decide
  simpa [h1, h2] using this

namespace PipeDemo
example : ∃ j, Behind (Spec.after (exec prog waiting).log) 0 j ∧ (j ∈ (exec prog waiting).stack ∨ (Spec.after (exec prog waiting).log).susp j = true ∨ (Spec.after (exec prog waiting).log).ph j = .gone) :=
  (C75_no_deadlock prog waiting (by decide) 0 1 (by decide)).1
example := C75_stage prog sums sumsStage pre1 rest.tail 1 2 1 0 .m1 [] ((exec prog ops).log.drop (exec prog pre1).log.length) ub (by decide) (by decide) rfl (by decide)
  (log_split pre1 (by decide)) (adv_of (by decide)) (poke_of (by decide)) (poke_of (by decide))
example : Behaves prog (.p 0) .start (outs 2 ((exec prog ops).log.drop (exec prog pre1).log.length)) :=
  C75_source prog _ (leaf_emits prog) pre1 rest 2 (.p 0) ((exec prog ops).log.drop (exec prog pre1).log.length) ub (by decide) (by decide)
    ⟨_, _, .await rfl (.yield rfl (.yield rfl (.ret rfl)))⟩ (log_split pre1 (by decide)) (poke_of (by decide))
end PipeDemo

end QCoro.AGen
