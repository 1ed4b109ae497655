import Verif.Util.Basic
/-
C73: `waitFor` when what it waits for completes on another thread (e.g. a Task that did `co_await moveToThread(other)`).
The model is an interleaving of the steps of the two threads (sequential consistency; `coroutineFinished` is a plain `bool`, so for the
C++ standard the unsynchronised accesses are a data race already).
-/
namespace QCoro.WaitCross

/-- Atomic steps. The waiting thread: `check`, `enter`, `look`, `leave`. The thread on which the awaited coroutine completes, and with it
`runCoroutine`: `store`, `flag`, `quit`, `nudge`. (Lines at each case; `QEventLoop` is Qt's: `exec` begins by clearing its exit flag and
then runs until the flag is set; `quit` sets the flag and then wakes the loop's event dispatcher through a member of the loop.) -/
inductive Op
  | check   -- `if (!context.coroutineFinished)` (`qcoro/impl/waitfor.h:71,80`)
  | enter   -- `context.loop.exec()` begins (`:72,81`)
  | look    -- one round of `exec`: it returns if the exit flag is set (`:72,81`)
  | leave   -- rethrow or return the result; `context` is destroyed (`:74-76,83-86`)
  | store   -- `result.emplace(…)` or `context.exception = …` (`:46-48,57-59`)
  | flag    -- `context.coroutineFinished = true` (`:50,61`)
  | quit    -- `context.loop.quit()` sets the exit flag (`:51,62`)
  | nudge   -- … and wakes the dispatcher (`:51,62`)
deriving DecidableEq

/-- The two threads and the `WaitContext` they share (`qcoro/impl/waitfor.h:28-32,67-88`); `R` is what the wait can end with: a value or an
exception. -/
structure State (R : Type) where
  res : Option R := none        -- `result` / `context.exception`
  fin : Bool := false           -- `context.coroutineFinished`
  exit : Bool := false          -- exit flag of `context.loop`
  w : Nat := 0                  -- the waiting thread: 0 before the check, 1 before `exec`, 2 in `exec`, 3 past it, 4 returned
  f : Nat := 0                  -- the completing thread: steps made
  got : Option (Option R) := none   -- what `waitFor` returned; `some none`: it read a result that was not there
  ub : Bool := false            -- the completing thread used `context` after it was destroyed
  log : List Op := []           -- steps made, in order

/-- (`qcoro/impl/waitfor.h:44-88`, lines at `Op`.) A step that is not the next one of its thread does nothing. -/
def step {R : Type} (r : R) (s : State R) : Op → State R
  | .check => if s.w = 0 then { s with w := if s.fin then 3 else 1, log := s.log ++ [.check] } else s
  | .enter => if s.w = 1 then { s with w := 2, exit := false, log := s.log ++ [.enter] } else s
  | .look => if s.w = 2 then { s with w := if s.exit then 3 else 2, log := s.log ++ [.look] } else s
  | .leave => if s.w = 3 then { s with w := 4, got := some s.res, log := s.log ++ [.leave] } else s
  | .store => if s.f = 0 then { s with f := 1, res := some r, ub := s.ub || s.w == 4, log := s.log ++ [.store] } else s
  | .flag => if s.f = 1 then { s with f := 2, fin := true, ub := s.ub || s.w == 4, log := s.log ++ [.flag] } else s
  | .quit => if s.f = 2 then { s with f := 3, exit := true, ub := s.ub || s.w == 4, log := s.log ++ [.quit] } else s
  | .nudge => if s.f = 3 then { s with f := 4, ub := s.ub || s.w == 4, log := s.log ++ [.nudge] } else s

/-- Bookkeeping of the model, no counterpart in /repo. -/
def exec {R : Type} (r : R) (ops : List Op) : State R := ops.foldl (step r) {}

theorem exec_snoc {R : Type} (r : R) (ops : List Op) (op : Op) : exec r (ops ++ [op]) = step r (exec r ops) op := by simp [exec]

theorem exec_append {R : Type} (r : R) (a b : List Op) : exec r (a ++ b) = b.foldl (step r) (exec r a) := by simp [exec]

/-- Step `a` was made, and later step `b`. Specification vocabulary, no counterpart in /repo. -/
def Before (a b : Op) (l : List Op) : Prop := ∃ p q, l = p ++ b :: q ∧ a ∈ p

theorem before_snoc (a b : Op) (l : List Op) (x : Op) : Before a b (l ++ [x]) ↔ Before a b l ∨ (x = b ∧ a ∈ l) := by
  constructor
  · rintro ⟨p, q, e, h⟩
    rcases List.eq_nil_or_concat q with rfl | ⟨q', y, rfl⟩
    · have := List.append_inj' (s₁ := l) (t₁ := [x]) (s₂ := p) (t₂ := [b]) (by simpa using e) rfl
      obtain ⟨rfl, h2⟩ := this
      simp at h2
      exact .inr ⟨h2, h⟩
    · have := List.append_inj' (s₁ := l) (t₁ := [x]) (s₂ := p ++ b :: q') (t₂ := [y]) (by simpa using e) rfl
      exact .inl ⟨p, q', this.1, h⟩
  · rintro (⟨p, q, e, h⟩ | ⟨rfl, h⟩)
    · exact ⟨p, q ++ [x], by simp [e], h⟩
    · exact ⟨l, [], rfl, h⟩

/-- Proof invariant, no counterpart in /repo. -/
structure Inv {R : Type} (r : R) (s : State R) : Prop where
  w : s.w ≤ 4
  f : s.f ≤ 4
  res : s.res = if s.f = 0 then none else some r
  fin : s.fin = decide (2 ≤ s.f)
  check : Op.check ∈ s.log ↔ 1 ≤ s.w
  enter2 : s.w = 2 → Op.enter ∈ s.log
  enter1 : s.w ≤ 1 → Op.enter ∉ s.log
  leave : Op.leave ∈ s.log ↔ s.w = 4
  store : Op.store ∈ s.log ↔ 1 ≤ s.f
  flag : Op.flag ∈ s.log ↔ 2 ≤ s.f
  quit : Op.quit ∈ s.log ↔ 3 ≤ s.f
  nudge : Op.nudge ∈ s.log ↔ 4 ≤ s.f
  exit : s.exit = true ↔ 3 ≤ s.f ∧ ¬ Before .quit .enter s.log
  lost : Before .quit .enter s.log → s.w = 2 ∧ 3 ≤ s.f
  past : 3 ≤ s.w → 2 ≤ s.f
  got : s.got = if s.w = 4 then some (some r) else none
  ub : s.ub = true ↔ Before .leave .quit s.log ∨ Before .leave .nudge s.log
  win : s.w = 1 ∨ s.w = 2 → 2 ≤ s.f → Before .check .flag s.log
  early : ¬ Before .leave .store s.log ∧ ¬ Before .leave .flag s.log

theorem inv_exec {R : Type} (r : R) (ops : List Op) : Inv r (exec r ops) := by
  induction ops using snocInd with
  | nil =>
    have hb : ∀ a b, ¬ Before a b [] := by rintro a b ⟨p, q, e, _⟩; simp at e
    constructor <;> simp [exec, hb]
  | snoc ops op ih =>
    rw [exec_snoc]
    generalize exec r ops = s at *
    obtain ⟨h1, h2, h3, h4, h5, h6, h6', h7, h8, h9, h10, h11, h12, h13, h14, h15, h16, h17, h18, h19⟩ := ih
    cases op <;> simp only [step] <;> split <;> (try exact ⟨h1, h2, h3, h4, h5, h6, h6', h7, h8, h9, h10, h11, h12, h13, h14, h15, h16, h17, h18, h19⟩)
    all_goals
      rename_i hc
      constructor <;> simp only [before_snoc, List.mem_append, List.mem_singleton, reduceCtorEq, or_false, false_and, false_or] <;> grind

/-- `waitFor` never returns before the awaited coroutine has delivered, and what it returns is what that delivered: on every
interleaving. -/
theorem C73_result {R : Type} (r : R) (ops : List Op) (x : Option R) (h : (exec r ops).got = some x) :
    x = some r ∧ Before .store .leave (exec r ops).log := by
  have hw : (exec r ops).w = 4 := by
    have := (inv_exec r ops).got
    split at this
    · assumption
    · rw [this] at h; cases h
  refine ⟨by have := (inv_exec r ops).got; rw [if_pos hw, h] at this; injection this, ?_⟩
  clear h
  induction ops using snocInd with
  | nil => simp [exec] at hw
  | snoc ops op ih =>
    have hi := inv_exec r ops
    rw [exec_snoc] at hw ⊢
    generalize exec r ops = s at *
    cases op <;> simp only [step] at hw ⊢ <;> split <;> rename_i hc <;> (try simp only [if_pos hc] at hw) <;> (try simp only [if_neg hc] at hw) <;>
      (try exact ih hw) <;> simp only [before_snoc] <;> (try exact .inl (ih hw))
    · split at hw <;> omega
    · simp at hw
    · split at hw <;> omega
    · exact .inr ⟨by simp, hi.store.2 (by have := hi.past (by omega); omega)⟩

/-- Exactly when it hangs. The completing thread has done all it will do and the waiting thread has got as far as its event loop:
if the completion came in between the check and the start of the loop (the loop's `exec` forgets the `quit`), `waitFor` stays in the loop
whatever happens, and otherwise it leaves the loop in the next round. -/
theorem C73_hangs_iff {R : Type} (r : R) (ops : List Op) (hq : .quit ∈ (exec r ops).log) (hw : (exec r ops).w = 2) :
    ((Before .quit .enter (exec r ops).log) ↔ ∀ more, (exec r (ops ++ more)).got = none) ∧
    (¬ Before .quit .enter (exec r ops).log → (exec r (ops ++ [.look, .leave])).got = some (some r)) := by
  have hi := inv_exec r ops
  have hback : ¬ Before .quit .enter (exec r ops).log → (exec r (ops ++ [.look, .leave])).got = some (some r) := by
    intro h
    have he := hi.exit.2 ⟨hi.quit.1 hq, h⟩
    have hf := hi.quit.1 hq
    have hr := hi.res
    rw [if_neg (by omega)] at hr
    rw [exec_append]
    simp [step, hw, he, hr]
  refine ⟨⟨fun h => ?_, fun h => ?_⟩, hback⟩
  · have key : ∀ more, Before .quit .enter (exec r (ops ++ more)).log := by
      intro more
      induction more using snocInd with
      | nil => simpa using h
      | snoc more op ih =>
        rw [← List.append_assoc, exec_snoc]
        generalize exec r (ops ++ more) = s at *
        cases op <;> simp only [step] <;> split <;> (try exact ih) <;> exact (before_snoc ..).2 (.inl ih)
    intro more
    have h2 := inv_exec r (ops ++ more)
    have h3 := h2.got
    rwa [if_neg (by have := (h2.lost (key more)).1; omega)] at h3
  · exact Classical.byContradiction fun hn => by
      have := hback hn
      rw [h] at this; cases this

/-- The hang happens only if the awaited coroutine completed after the check. -/
theorem C73_hang_window {R : Type} (r : R) (ops : List Op) (h : Before .quit .enter (exec r ops).log) : Before .check .flag (exec r ops).log := by
  have hi := inv_exec r ops
  have := hi.lost h
  exact hi.win (.inr this.1) (by omega)

/-- Exactly when the completing thread touches the waiting thread's `WaitContext` after `waitFor` has returned and destroyed it: when
`waitFor` returns before the `quit` — possible, since the check may see the flag that is set before it — or before `quit` is through. -/
theorem C73_ub_iff {R : Type} (r : R) (ops : List Op) :
    (exec r ops).ub = true ↔ Before .leave .quit (exec r ops).log ∨ Before .leave .nudge (exec r ops).log := (inv_exec r ops).ub

/-- The result and the flag are always written in time. -/
theorem C73_writes_in_time {R : Type} (r : R) (ops : List Op) :
    ¬ Before .leave .store (exec r ops).log ∧ ¬ Before .leave .flag (exec r ops).log := (inv_exec r ops).early

/-- Steps of the completing thread. Specification vocabulary, no counterpart in /repo. -/
def Op.completing : Op → Bool
  | .store | .flag | .quit | .nudge => true
  | .check | .enter | .look | .leave => false

theorem waits {R : Type} (r : R) (a : List Op) (ha : ∀ o ∈ a, o.completing = false) :
    (exec r a).f = 0 ∧ (exec r a).w ≤ 2 ∧ (exec r a).ub = false := by
  induction a using snocInd with
  | nil => simp [exec]
  | snoc a o ih =>
    have ih := ih fun o ho => ha o (by simp [ho])
    have ho := ha o (by simp)
    have hi := inv_exec r a
    rw [exec_snoc]
    generalize exec r a = s at *
    obtain ⟨h1, h2, h3⟩ := ih
    have hf : s.fin = false := by rw [hi.fin, h1]; rfl
    have he : s.exit = false := by
      cases he : s.exit with
      | false => rfl
      | true => have := (hi.exit.1 he).1; omega
    cases o <;> simp [Op.completing] at ho <;> simp only [step, hf, he] <;> split <;> simp_all <;> omega

/-- If the completion happens as a whole while the waiting thread is not between its check and its loop — which is the case when both
are the same thread — nothing goes wrong: no hang and no use after destruction. `a` and `b` are what the waiting thread does before and
after. -/
theorem C73_atomic {R : Type} (r : R) (a b : List Op) (ha : ∀ o ∈ a, o.completing = false) (hb : ∀ o ∈ b, o.completing = false)
    (hw : .check ∈ (exec r a).log → .enter ∈ (exec r a).log) :
    let s := exec r (a ++ [.store, .flag, .quit, .nudge] ++ b)
    s.ub = false ∧ ¬ Before .quit .enter s.log ∧ (exec r (a ++ [.store, .flag, .quit, .nudge] ++ b ++ [.check, .look, .leave])).got = some (some r) := by
  have key : ∀ b : List Op, (∀ o ∈ b, o.completing = false) →
      let s := exec r (a ++ [.store, .flag, .quit, .nudge] ++ b)
      s.f = 4 ∧ s.exit = true ∧ s.w ≠ 1 ∧ s.ub = false := by
    intro b hb
    induction b using snocInd with
    | nil =>
      obtain ⟨h1, h2, h3⟩ := waits r a ha
      have hi := inv_exec r a
      have hw1 : (exec r a).w ≠ 1 := fun h => hi.enter1 (by omega) (hw (hi.check.2 (by omega)))
      rw [List.append_nil, exec_append]
      generalize exec r a = s at *
      have hw4 : s.w ≠ 4 := by omega
      simp [step, h1, h3, hw1, hw4]
    | snoc b o ih =>
      have ih := ih fun o ho => hb o (by simp [ho])
      have ho := hb o (by simp)
      have hi := inv_exec r (a ++ [.store, .flag, .quit, .nudge] ++ b)
      rw [← List.append_assoc, exec_snoc]
      generalize exec r (a ++ [.store, .flag, .quit, .nudge] ++ b) = s at *
      obtain ⟨h1, h2, h3, h4⟩ := ih
      have hf : s.fin = true := by rw [hi.fin, h1]; rfl
      cases o <;> simp [Op.completing] at ho <;> simp only [step, hf] <;> split <;> simp_all
  obtain ⟨h1, h2, h3, h4⟩ := key b hb
  have hi := inv_exec r (a ++ [.store, .flag, .quit, .nudge] ++ b)
  refine ⟨h4, (hi.exit.1 h2).2, ?_⟩
  rw [exec_append]
  generalize exec r (a ++ [.store, .flag, .quit, .nudge] ++ b) = s at *
  have hf : s.fin = true := by rw [hi.fin, h1]; rfl
  have hr : s.res = some r := by rw [hi.res, h1]; rfl
  have hg := hi.got
  have hle := hi.w
  have : s.w = 0 ∨ s.w = 2 ∨ s.w = 3 ∨ s.w = 4 := by omega
  rcases this with hw | hw | hw | hw <;> simp [step, hw, hf, hr, h2, hg]

/-- In time: the loop runs, then the other thread completes. Too early: it completes before the check. -/
example : let s := exec 7 [.check, .enter, .look, .store, .flag, .look, .quit, .nudge, .look, .leave]
    (s.got, s.ub) = (some (some 7), false) := by decide
example : let s := exec 7 [.store, .flag, .quit, .nudge, .check, .leave]
    (s.got, s.ub, Before .quit .enter s.log ↔ False) = (some (some 7), false, True) := by
  simp [exec, step, Before]
  rintro p q e h
  have : Op.enter ∈ [Op.store, .flag, .quit, .nudge, .check, .leave] := by rw [e]; simp
  simp at this

/-- Found: a completion between the check and the loop is lost, and `waitFor` hangs. -/
theorem C73_lost_quit : let s := exec 7 [.check, .store, .flag, .quit, .nudge, .enter]
    .quit ∈ s.log ∧ s.w = 2 ∧ Before .quit .enter s.log := by
  refine ⟨by decide, by decide, [.check, .store, .flag, .quit, .nudge], [], by decide, by decide⟩

/-- Found: the flag is seen before the `quit`: `waitFor` returns, and the other thread quits an event loop that no longer exists. -/
theorem C73_dead_loop : let s := exec 7 [.store, .flag, .check, .leave, .quit]
    s.ub = true ∧ s.got = some (some 7) := by decide

end QCoro.WaitCross
