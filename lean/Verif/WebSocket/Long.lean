import Verif.Listener.Long
import Verif.WebSocket.GenUb
/-! # C86 for the message generators of QWebSocket -/

namespace QCoro.WebSocketGen
open QCoro.Long
open QCoro.Listener (Ev J abs abs_step)
variable {β : Type}

/-- As `step` (`qcoro/websockets/qcorowebsocket.cpp:119-139`), on a listener (`:127`) whose timer keeps its interval as `QTimer` does. -/
def stepQ (q : Qt) (s : State β) : Op β → State β
  | .msg a => if s.L.gen = .fresh then { s with early := s.early ++ [a] } else { s with L := Listener.stepQ q s.L (.emit (some a)) }
  | .state c => if s.L.gen = .fresh ∨ c = true then s else { s with L := Listener.stepQ q s.L (.emit none) }
  | .time d => { s with L := Listener.stepQ q s.L (.time d) }
  | .deliver => { s with L := fin (Listener.stepQ q s.L .deliver) }
  | .fire => { s with L := fin (Listener.stepQ q s.L .fire) }
  | .next => { s with L := fin (Listener.stepQ q s.L .next) }
  | .pause => { s with L := fin (Listener.stepQ q s.L .pause) }
  | .wake => { s with L := Listener.stepQ q s.L .wake }
  | .drop => { s with L := Listener.stepQ q s.L .drop }

/-- Bookkeeping of the model, no counterpart in /repo. -/
def runQ (q : Qt) (t : Int) (ops : List (Op β)) : State β := ops.foldl (stepQ q) { L := { timeout := t } }

theorem runQ_snoc (q : Qt) (t : Int) (ops : List (Op β)) (op : Op β) : runQ q t (ops ++ [op]) = stepQ q (runQ q t ops) op := by simp [runQ]

/-- Proof vocabulary, no counterpart in /repo. -/
def absW (q : Qt) (s : State β) : State β := { s with L := abs q s.L }

theorem abs_fin (q : Qt) (L : Listener.State (Option β)) (j : J q L) : abs q (fin L) = fin (abs q L) ∧ J q (fin L) := by
  unfold fin
  rw [show (abs q L).log = L.log from rfl]
  by_cases h : endsNow L.log = true
  · rw [if_pos h, if_pos h]
    have := abs_step q L j .drop
    have e : Listener.stepQ q L .drop = Listener.step L .drop := by
      by_cases hu : L.ub.isSome = true
      · unfold Listener.stepQ Listener.step; rw [if_pos hu, if_pos hu]
      · unfold Listener.stepQ; rw [if_neg hu]
    rwa [e] at this
  · rw [if_neg h, if_neg h]; exact ⟨rfl, j⟩

theorem absW_step (q : Qt) (s : State β) (j : J q s.L) (op : Op β) : absW q (stepQ q s op) = step (absW q s) op ∧ J q (stepQ q s op).L := by
  have plain : ∀ o, absW q { s with L := Listener.stepQ q s.L o } = { absW q s with L := Listener.step (absW q s).L o } ∧ J q (Listener.stepQ q s.L o) := by
    intro o
    have := abs_step q s.L j o
    refine ⟨?_, this.2⟩
    simp only [absW, this.1]
  have ended : ∀ o, absW q { s with L := fin (Listener.stepQ q s.L o) } = { absW q s with L := fin (Listener.step (absW q s).L o) } ∧ J q (fin (Listener.stepQ q s.L o)) := by
    intro o
    have h1 := abs_step q s.L j o
    have h2 := abs_fin q _ h1.2
    refine ⟨?_, h2.2⟩
    simp only [absW, h2.1, h1.1]
  cases op with
  | msg a =>
    simp only [stepQ, step]
    by_cases h : s.L.gen = .fresh
    · rw [if_pos h, if_pos (show (absW q s).L.gen = .fresh from h)]; exact ⟨rfl, j⟩
    · rw [if_neg h, if_neg (show ¬ (absW q s).L.gen = .fresh from h)]; exact plain _
  | state c =>
    simp only [stepQ, step]
    by_cases h : s.L.gen = .fresh ∨ c = true
    · rw [if_pos h, if_pos (show (absW q s).L.gen = .fresh ∨ c = true from h)]; exact ⟨rfl, j⟩
    · rw [if_neg h, if_neg (show ¬ ((absW q s).L.gen = .fresh ∨ c = true) from h)]; exact plain _
  | time d => exact plain _
  | wake => exact plain _
  | drop => exact plain _
  | deliver => exact ended _
  | fire => exact ended _
  | next => exact ended _
  | pause => exact ended _

theorem absW_run (q : Qt) (t : Int) (ops : List (Op β)) : absW q (runQ q t ops) = run (Wait.effT q t) ops ∧ J q (runQ q t ops).L := by
  induction ops using snocInd with
  | nil =>
    have h := Listener.abs_exec q t ([] : List (Listener.Op (Option β)))
    refine ⟨?_, h.2⟩
    have e : abs q ({ timeout := t } : Listener.State (Option β)) = { timeout := Wait.effT q t } := h.1
    simp only [runQ, run, List.foldl_nil, absW, e]
  | snoc ops op ih =>
    rw [runQ_snoc, run_snoc, ← ih.1]; exact absW_step q _ ih.2 op

/-- **C86 for a message generator.** Everything that happens to its consumer, undefined behaviour included, is what happens with the timeout that
`QTimer` makes of the given one: the same if it is negative or shorter than 2^31 ms, modulo 2^32 if that is less than 2^31, none otherwise. -/
theorem C86_messages (t : Int) (ops : List (Op β)) :
    (t < 2 ^ 31 → (runQ .narrow t ops).log = (run t ops).log ∧ (runQ .narrow t ops).L.ub = (run t ops).L.ub) ∧
    (0 ≤ t → t % 2 ^ 32 < 2 ^ 31 → (runQ .narrow t ops).log = (run (t % 2 ^ 32) ops).log ∧ (runQ .narrow t ops).L.ub = (run (t % 2 ^ 32) ops).L.ub) ∧
    (2 ^ 31 ≤ t % 2 ^ 32 → ∃ t' < 0, (runQ .narrow t ops).log = (run t' ops).log ∧ (runQ .narrow t ops).L.ub = (run t' ops).L.ub) ∧
    (runQ .wide t ops).log = (run t ops).log ∧ (runQ .wide t ops).L.ub = (run t ops).L.ub := by
  have key : ∀ q, (runQ q t ops).log = (run (Wait.effT q t) ops).log ∧ (runQ q t ops).L.ub = (run (Wait.effT q t) ops).L.ub := by
    intro q; rw [← (absW_run q t ops).1]; exact ⟨rfl, rfl⟩
  refine ⟨fun h => ?_, fun h0 h => ?_, fun h => ?_, ?_⟩
  · have := key .narrow
    have e : Wait.effT .narrow t = t := by
      unfold Wait.effT; split
      · exact interval_short _ _ (by omega) h
      · rfl
    rwa [e] at this
  · have := key .narrow
    have e : Wait.effT .narrow t = t % 2 ^ 32 := by unfold Wait.effT; rw [if_pos h0]; exact (interval_cases t).1 h
    rwa [e] at this
  · refine ⟨Wait.effT .narrow t, ?_, key .narrow⟩
    unfold Wait.effT; split
    · exact (interval_cases t).2 h
    · omega
  · have := key .wide
    have e : Wait.effT .wide t = t := by unfold Wait.effT; split <;> rfl
    rwa [e] at this

example : (runQ .narrow (2 ^ 31) [.next, .msg (7 : Nat), .deliver, .next, .time (2 ^ 40), .fire]).log = [.next 0, .msg 7, .got 7, .next 0] ∧
    (runQ .narrow (2 ^ 32) [.next, .fire] : State Nat).log = [.next 0, .ended 0, .released] := by decide

end QCoro.WebSocketGen
