import Verif.Task.Told
import Verif.Task.WaitDemo

/-! Concrete runs for C66. -/
namespace QCoro.Task

-- coroutine 1 (body 10) awaits task 0, which awaits something outside; both are called by the main program
def awPre : List (Op Nat Nat Nat) := thenPre
def awOp : Op Nat Nat Nat := .main (.call .eager 10 0 [])
theorem aw_performs : Performs demo (exec demo awPre) awOp none (.call .eager 10 0 []) := ⟨by decide, .inl ⟨rfl, rfl, by decide⟩⟩
example : (exec demo awPre).nc = 1 ∧ (exec demo (awPre ++ awOp :: go 3)).ub = none ∧ life 1 (exec demo (awPre ++ awOp :: go 3)).log = .waitTask 0 ∧
    seenOf 1 (exec demo (awPre ++ awOp :: go 3)) = [] := by decide
-- the awaited task produces 5: the body hears 5 and returns 5
example : (exec demo (awPre ++ awOp :: (go 3 ++ [.fire 0 (.val 5)] ++ go 12))).ub = none ∧
    seenOf 1 (exec demo (awPre ++ awOp :: (go 3 ++ [.fire 0 (.val 5)] ++ go 12))) = [.heard (.val 5), .ended (.val 5)] ∧
    seenOf 0 (exec demo (awPre ++ awOp :: (go 3 ++ [.fire 0 (.val 5)] ++ go 12))) = [.heard (.val 5), .ended (.val 5)] := by decide
-- it throws: the body hears the exception and throws it on
example : seenOf 1 (exec demo (awPre ++ awOp :: (go 3 ++ [.fire 0 (.exc 9)] ++ go 12))) = [.heard (.exc 9), .ended (.exc 9)] := by decide
-- the sequential program can get there
example : Plays demo 10 (.start [] 0) ⟨2, some (.ret 5), [.heard (.val 5), .ended (.val 5)]⟩ :=
  .turn (.turn .start (.start [] 0) rfl) (.res (.val 5)) ⟨_, rfl⟩
-- but not to a point where it returned something else, e.g. the exception's code
example : ¬ ∃ y, y.seen = [.heard (.exc 9), .ended (.val 9)] ∧ Plays demo 30 (.start [] 0) y := by
  rintro ⟨y, h, hy⟩
  have : ∀ y, Plays demo 30 (.start [] 0) y → y.seen.length ≤ 1 := by
    intro y hy
    cases hy with
    | start => simp
    | turn h i hi =>
      cases h with
      | start => simp [Point.turn, hears, Fits, demo, demoNext, shows] at *
      | turn h' i' hi' =>
        cases h' with
        | start => simp [Point.turn, Fits, demo, demoNext] at *
        | turn h'' i'' hi'' =>
          exfalso
          have hover : ∀ z, Plays demo 30 (.start [] 0) z → z.last = none ∨ z.last = some (.throw 9) := by
            intro z hz
            induction hz with
            | start => simp
            | turn hz i hi ih =>
              cases hz with
              | start => simp [Point.turn, demo, demoNext]
              | turn hz2 i2 hi2 =>
                rcases ih with ih | ih
                · simp [Point.turn] at ih
                · rw [ih] at hi; simp [Fits] at hi
          have := hover _ (.turn h'' i'' hi'')
          rcases this with h | h
          · simp [Point.turn] at h
          · rw [h] at hi'; simp [Fits] at hi'
  have := this y hy
  rw [h] at this; simp at this

-- a body in a call of waitFor (body 50), nested event loop included
theorem nest_performs : Performs demo (exec demo thenPre) (.main (.call .eager 50 0 [])) none (.call .eager 50 0 []) := ⟨by decide, .inl ⟨rfl, rfl, by decide⟩⟩
example : seenOf 1 (exec demo (waitNest ++ .run :: go 6)) = [] ∧ (exec demo (waitNest ++ .run :: go 6)).stack.contains (.body 1) = true ∧
    seenOf 1 (exec demo (waitNest ++ .run :: (go 6 ++ [.fire 0 (.val 5)] ++ go 12))) = [.heard (.val 5), .ended (.val 5)] := by decide

-- a coroutine callback: coroutine 2, body 20
example : .cbTask 1 2 ∈ (exec demo (thenRun cfgCoro (.val 5))).log ∧ seenOf 2 (exec demo (thenRun cfgCoro (.val 5))) = [.ended (.val 7)] := by decide
-- and one with a side effect, body 40, told the value 5
example : seenOf 2 (exec demo (thenRun ⟨40, some .eager, none, none⟩ (.val 5))) = [.said 5, .ended (.val 1)] ∧
    (exec demo (thenRun ⟨40, some .eager, none, none⟩ (.val 5))).ub = none := by decide

end QCoro.Task
