import Verif.Generator.Owner
import Verif.Generator.Depth
import Verif.Generator.Told
import Verif.Generator.PipeDemo
/-! # The theorems about generators applied to concrete runs: their hypotheses are met -/
namespace QCoro.Gen

set_option maxRecDepth 32000

theorem at_ {l : List (Ev V E)} (n e) (h : l[n]? = some e) : l = l.take n ++ e :: l.drop (n + 1) := by
  obtain ⟨hn, h⟩ := List.getElem?_eq_some_iff.1 h
  have := (List.take_append_drop n l).symm
  rw [List.drop_eq_getElem_cons hn, h] at this
  exact this

/-- Two generators are called, one is moved over the other, which leaks; the target is destroyed. -/
def owner : List (Op Nat Nat) := [.main (.create 0), .main (.create 0), .main (.create 0), .main (.moveAssign 0 1), .main (.drop 0)]

theorem owner_idle : ∀ g, (Spec.after (exec demo owner).log).ph g ≠ .running
  | 0 => by decide
  | 1 => by decide
  | 2 => by decide
  | n + 3 => fun e => by
    have : (Spec.after (exec demo owner).log).ph (n + 3) = .unborn := by rfl
    rw [this] at e; cases e

example := C19_reported demo demoOps (by decide) 0
example := C19_for_loop demo 0 [10, 20] none (.yield rfl (.yield rfl (.ret rfl)))
example := C19_for_loop demo 100 [1] (some 7) (.yield rfl (.throw rfl))
example : segs 0 (exec demo demoOps).log = advs 0 (exec demo demoOps).log := C20_exactly_one_segment_per_advance demo demoOps 0 (by decide) (by decide)
example : advs 0 ((exec demo demoOps).log.take 7) = segs 0 ((exec demo demoOps).log.take 7) + 1 := C20_lazy demo demoOps _ _ 0 (at_ 7 _ (by decide))
example := C20_nothing_before_begin demo demoOps _ _ 0 (at_ 2 _ (by decide))
example := C21_exception_reported demo demoOps _ _ 0 (.inc 0) 7 (at_ 9 _ (by decide))
example := C21_once demo demoOps _ _ 0 (.inc 0) 7 (at_ 9 _ (by decide))
example := C22_owned demo (demoOps.take 8) (by decide) 0 (by decide) (by decide) (by decide)
example := C22_drop_destroys_owned demo owner _ _ 0 (some 1) (at_ 4 _ (by decide))
example : destroys 0 (exec demo owner).log = 0 := C22_overwritten_leaks demo owner _ _ 0 1 0 (at_ 3 _ (by decide)) (by decide)
example := C22_fate demo owner (by decide) 0 0 (by decide)
example : (exec demo (owner ++ [.main (.begin 0)])).ub = misuse (σ := Nat) (Spec.after (exec demo owner).log) (.begin 0) :=
  C22_ub_iff_misuse demo owner (.begin 0) (by decide) owner_idle
example := C22_body_leaves demo [.main (.create 0), .main (.begin 0)] 0 (.begin 0) [] 0 (by decide) (by decide) (by decide) (by intro a h; cases h)
/-- A generator that is about to call begin() of another one. -/
example := C22_ub_iff_misuse_in_body PipeDemo.prog PipeDemo.pre0 0 (.begin 0) [] .c1 (.begin 1) (by decide) (by decide) (by decide) (by rfl)
example := C84_generator_no_reentry PipeDemo.prog PipeDemo.pre1 (by decide)

/-- What is written through the iterator is what co_yield gives. -/
def toldOps : List (Op Nat Nat) := (.main (.create 0) :: .main (.begin 0) :: List.replicate 7 .tick) ++ [.main (.poke 2 8), .main (.inc 2)]
example : ∃ e, (exec outer toldOps).log.getLast? = some e ∧ ((exec outer toldOps).fr 0).inp = answer e := C20_told outer toldOps (by decide) 0 (.inc 2) [] (by decide)
example : ((exec outer (toldOps ++ [.tick])).fr 0).st = some (outer.next 5 (.resumed 8)).1 := by
  have := C20_resumes_where_it_stopped outer toldOps .tick (by decide) 0 5 (by decide) (by decide)
  have h1 : (exec outer toldOps).stack = [(0, .inc 2)] := by decide
  have h2 : ((exec outer toldOps).fr 0).inp = .resumed 8 := by decide
  simpa [h1, h2] using this

namespace PipeDemo
example := C81_stage prog sums sumsStage pre1 rest.tail 1 2 2 0 .m1 (.begin 1) [(0, .begin 0)] ((exec prog ops).log.drop (exec prog pre1).log.length) ub (by decide) (by decide) rfl
  (by decide) (log_split pre1 (by decide)) (adv_of (by decide)) (poke_of (by decide)) (poke_of (by decide))
example : Behaves prog (.p 0) .start (outs 2 ((exec prog ops).log.drop (exec prog pre1).log.length)) :=
  C81_source prog _ (leaf_emits prog) pre1 rest 2 (.p 0) ((exec prog ops).log.drop (exec prog pre1).log.length) ub (by decide) (by decide)
    ⟨_, _, .work rfl (.yield rfl (.yield rfl (.ret rfl)))⟩ (log_split pre1 (by decide)) (poke_of (by decide))
end PipeDemo

end QCoro.Gen
