import Verif.Task.Chain
import Verif.Task.Place
/-! # The theorems of C65 and C85 (tasks) applied to concrete runs: their hypotheses are met -/
namespace QCoro.Task

set_option maxRecDepth 32000

theorem notInitial (x : Nat) (l : List (Ev Nat Nat)) (h : ∀ k, .spawned x k ∉ l) (st : Status) (hs : st ≠ .initial) : l.foldl (lifeStep x) st ≠ .initial := by
  induction l generalizing st with
  | nil => exact hs
  | cons e l ih =>
    refine ih (fun k hk => h k (by simp [hk])) _ ?_
    cases e with
    | spawned y k => simp only [lifeStep]; split
                     · subst y; exact absurd (by simp) (h k)
                     · exact hs
    | _ => simp only [lifeStep] <;> first | exact hs | (split <;> first | exact hs | simp)

example : ∃ r0, .finished 0 r0 ∈ (exec demo (chainRun cfgPlain (.val 5))).log ∧ Pipe demo (exec demo (chainRun cfgPlain (.val 5))).log [cfgPlain.plain, cfgPlain.plain] r0 (.val 1) :=
  C65_composes (chainRun_chain cfgPlain (.val 5)) (by decide) (by decide)
example : ∃ r, .finished 2 r ∈ (exec demo (chainRun cfgPlain (.val 5))).log :=
  C65_runs_through (chainRun_chain cfgPlain (.val 5)) (by decide) (by decide) (by intro cfg h; simp at h; subst h; rfl)
    (by
      intro x hx
      by_cases h3 : x < 3
      · have : ∀ y < 3, life y (exec demo (chainRun cfgPlain (.val 5))).log ≠ .initial := by decide
        exact this x h3
      · have hs : ∀ e ∈ (exec demo (chainRun cfgPlain (.val 5))).log, (match e with | .spawned y _ => decide (y < 3) | _ => true) = true := by decide
        exact notInitial x _ (fun k hk => h3 (by simpa using hs _ hk)) .unborn (by simp)) (by decide : Ev.finished 0 (.val 5) ∈ _)

/-- Two pairs, each on its own thread, at home. -/
theorem neighbours_turns : TurnByTurn demo neighbours := turnByTurn_of (by decide)
/-- The thread each coroutine of `neighbours` was called on. -/
def homeOf (c : Nat) : Nat := if c = 1 ∨ c = 4 then 1 else 2

/-- The first `n` events of `neighbours`. -/
def before (n : Nat) : List (Nat × Ev Nat Nat) := (thist demo neighbours).take n
theorem split (n t e) (h : (thist demo neighbours)[n]? = some (t, e)) : thist demo neighbours = before n ++ (t, e) :: (thist demo neighbours).drop (n + 1) := by
  obtain ⟨hn, h⟩ := List.getElem?_eq_some_iff.1 h
  have := (List.take_append_drop n (thist demo neighbours)).symm
  rw [List.drop_eq_getElem_cons hn, h] at this
  exact this

example := C85_same_history demo neighbours neighbours_turns
example : place 4 (before 24) = some 1 := C85_stays demo neighbours neighbours_turns _ _ _ _ (split 24 1 (.finished 4 (.exc 5)) (by decide)) 4 (by decide)
example := C85_starts demo neighbours neighbours_turns _ _ _ _ (split 10 2 (.started 2) (by decide))
example := C85_starts demo neighbours neighbours_turns _ _ _ _ (split 13 1 (.started 4) (by decide))
example := C85_woken demo neighbours neighbours_turns _ _ _ _ _ _ (split 19 2 (.gotWoken 3 2 (.val 5)) (by decide))
example := C85_outside demo neighbours neighbours_turns _ _ _ _ _ (split 21 1 (.extRes 1 (.exc 5)) (by decide))

theorem home_calls : ∀ t c, (t, .spawned c .eager) ∈ thist demo neighbours → homeOf c = t := by
  have : ∀ p ∈ thist demo neighbours, (match p.2 with | .spawned c .eager => homeOf c == p.1 | _ => true) = true := by decide
  intro t c h; simpa using this _ h
theorem home_awaits : ∀ t a d, (t, .awaitReg a d) ∈ thist demo neighbours → homeOf a = homeOf d := by
  have : ∀ p ∈ thist demo neighbours, (match p.2 with | .awaitReg a d => homeOf a == homeOf d | _ => true) = true := by decide
  intro t a d h; simpa using this _ h
theorem home_outside : ∀ pre t c r post, thist demo neighbours = pre ++ (t, .extRes c r) :: post → place c pre = some t := by
  have : ∀ i < (thist demo neighbours).length, (match (thist demo neighbours)[i]? with | some (t, .extRes c _) => place c ((thist demo neighbours).take i) == some t | _ => true) = true := by decide
  intro pre t c r post h
  have := this pre.length (by rw [h]; simp)
  rw [h] at this
  simpa using this

example : 1 = homeOf 4 :=
  C85_home demo neighbours neighbours_turns homeOf home_calls home_awaits home_outside 1 (.finished 4 (.exc 5)) 4 (by decide) (.inr (by decide))

end QCoro.Task
