import Verif.Task.Progress
import Verif.Task.WaitDemo

/-! Concrete runs for C61 and C62. -/
namespace QCoro.Task

-- C61: 1 and 2 await 0, which awaits something outside
example : (exec demo demoTwo).ub = none ∧ (exec demo demoTwo).stack = [] ∧ .started 1 ∈ (exec demo demoTwo).log ∧
    life 1 (exec demo demoTwo).log = .waitTask 0 ∧ life 0 (exec demo demoTwo).log = .waitExt := by decide

-- C61: nothing is pending, everybody finished
example : Started 1 (exec demo demoTwoDone).log ∧ fins 1 (exec demo demoTwoDone).log = [.val 5] := by
  refine ⟨?_, by decide⟩
  show Ev.started 1 ∈ (exec demo demoTwoDone).log
  decide

theorem demoTwoDone_idle (c : Nat) : life c (exec demo demoTwoDone).log = .done ∨ life c (exec demo demoTwoDone).log = .unborn := by
  by_cases h : c < 3
  · have : c = 0 ∨ c = 1 ∨ c = 2 := by omega
    rcases this with rfl | rfl | rfl <;> decide
  · right
    have hu : (exec demo demoTwoDone).ub = none := by decide
    have hco := (exec_inv demo demoTwoDone hu).i2.i1.core
    have hn : (exec demo demoTwoDone).nc = 3 := by decide
    rw [(exec_linv demo demoTwoDone).life, hco.corB c (by omega)]

-- the hypotheses of `C61_all_finish` are met
example : (∀ c, life c (exec demo demoTwoDone).log ≠ .waitExt) ∧ (∀ c, life c (exec demo demoTwoDone).log ≠ .waitNull) ∧
    (∀ c, ¬ Awaits (exec demo demoTwoDone).log c c) := by
  refine ⟨fun c h => ?_, fun c h => ?_, fun c h => ?_⟩
  · rcases demoTwoDone_idle c with h1 | h1 <;> rw [h1] at h <;> cases h
  · rcases demoTwoDone_idle c with h1 | h1 <;> rw [h1] at h <;> cases h
  · cases h with
    | one h => rcases demoTwoDone_idle c with h1 | h1 <;> rw [h1] at h <;> cases h
    | more h => rcases demoTwoDone_idle c with h1 | h1 <;> rw [h1] at h <;> cases h

/-- C61: a coroutine that awaits itself stands still for ever. -/
theorem C61_circle_example : let s := exec demo [.main (.call .eager 10 0 []), .run]
    s.ub = none ∧ s.stack = [] ∧ life 0 s.log = .waitTask 0 := by decide

-- C62: a call of waitFor on task 0; inside its event loop a call on task 1; task 0 finishes first
def nestPre : List (Op Nat Nat Nat) := thenPre ++ [.main (.call .eager 0 0 [])] ++ go 3
def nestMid : List (Op Nat Nat Nat) := go 6
def nestEnd : List (Op Nat Nat Nat) := go 6 ++ [.fire 0 (.val 5)] ++ go 12
theorem nest_first : Waits demo (exec demo nestPre) (.main (.waitFor (.task 0) false)) none 0 2 (.task (some 0)) false :=
  have h : Waits demo (exec demo nestPre) (.main (.waitFor (.task 0) false)) none (exec demo nestPre).nw (exec demo nestPre).nc ((exec demo nestPre).aim (.task 0)) false :=
    .mk none (.task 0) false ⟨by decide, .inl ⟨rfl, rfl, by decide⟩⟩
  h
theorem nest_second : Waits demo (exec demo (nestPre ++ .main (.waitFor (.task 0) false) :: nestMid)) (.main (.waitFor (.task 1) false)) none 1 3 (.task (some 1)) false :=
  have h : Waits demo (exec demo (nestPre ++ .main (.waitFor (.task 0) false) :: nestMid)) (.main (.waitFor (.task 1) false)) none
      (exec demo (nestPre ++ .main (.waitFor (.task 0) false) :: nestMid)).nw (exec demo (nestPre ++ .main (.waitFor (.task 0) false) :: nestMid)).nc
      ((exec demo (nestPre ++ .main (.waitFor (.task 0) false) :: nestMid)).aim (.task 1)) false :=
    .mk none (.task 1) false ⟨by decide, .inl ⟨rfl, rfl, by decide⟩⟩
  h
-- although task 0 has finished, its call does not return until the inner one has
example : let s := exec demo ((nestPre ++ .main (.waitFor (.task 0) false) :: nestMid) ++ .main (.waitFor (.task 1) false) :: nestEnd)
    s.ub = none ∧ s.stack = [.loop 1, .loop 0] ∧ .finished 0 (.val 5) ∈ s.log ∧ .waitRet 0 (.val 5) ∉ s.log := by decide
set_option maxRecDepth 4000 in
example : let s := exec demo ((nestPre ++ .main (.waitFor (.task 0) false) :: nestMid) ++ .main (.waitFor (.task 1) false) :: (nestEnd ++ [.fire 1 (.val 6)] ++ go 14))
    s.ub = none ∧ s.stack = [] ∧ .waitRet 0 (.val 5) ∈ s.log ∧ .waitRet 1 (.val 6) ∈ s.log := by decide

-- what a coroutine awaits may complete while the body of another one runs (a direct connection): it runs nested
example : let s := exec demo (thenPre ++ [.main (.call .eager 40 3 []), .fire 0 (.val 5)])
    s.ub = none ∧ s.stack = [.body 0, .body 1] ∧ life 1 s.log = .running := by decide
example : let s := exec demo (thenPre ++ [.main (.call .eager 40 3 []), .fire 0 (.val 5)] ++ go 12)
    s.ub = none ∧ s.stack = [] ∧ fins 0 s.log = [.val 5] ∧ fins 1 s.log = [.val 1] := by decide
end QCoro.Task
