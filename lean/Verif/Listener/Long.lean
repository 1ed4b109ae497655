import Verif.Wait.Long
import Verif.Listener.Props
import Verif.Listener.Ub
/-! # C86 for signal listeners: timeouts that do not fit into an `int` -/
set_option linter.unusedSimpArgs false

namespace QCoro.Listener
open QCoro.Long
variable {α : Type}

/-- As `State.awaitQueue`, with the interval as `QTimer` keeps it: the timer exists if the timeout is not negative (`qcoro/core/qcorosignal.h:125`), it is
given the converted interval (`:127`), and every `QTimer::start()` (`:118`) of a negative interval starts nothing. -/
def State.awaitQueueQ (q : Qt) (s : State α) : State α :=
  if s.alive = false ∨ s.queue ≠ [] then s.dequeue
  else
    let i := interval q s.timeout
    let s1 : State α := if s.timeout > -1 then { s with nconn := s.nconn + 1, timer := if 0 ≤ i then some (s.now + i.toNat) else none } else s
    { s1 with awaiting := true, gen := .waiting s.now }

/-- `mAwaitingCoroutine.resume()` (`qcoro/core/qcorosignal.h:116`, `:321-323`), as `State.resumeGen`. -/
def State.resumeGenQ (q : Qt) (s : State α) : State α :=
  match s.gen with
  | .fresh => s.awaitQueueQ q
  | .waiting _ => s.dequeue
  | .yielded => s.awaitQueueQ q
  | .done => { s with ub := some .resumeDone }
  | .gone => s

/-- The slot (`qcoro/core/qcorosignal.h:312-324`), as `State.slot`. -/
def State.slotQ (q : Qt) (s : State α) (a : α) : State α :=
  let s1 : State α := { s with timer := none, queue := s.queue ++ [a] }
  if s1.awaiting then s1.resumeGenQ q else s1

/-- The timeout's slots (`qcoro/core/qcorosignal.h:113-117`), as `State.timeouts`. -/
def State.timeoutsQ (q : Qt) : Nat → State α → State α
  | 0, s => { s with pending := 0 }
  | n + 1, s =>
    if s.ub.isSome then s
    else if s.running then { s with pending := n + 1 }
    else State.timeoutsQ q n (({ s with conn := false } : State α).resumeGenQ q)

/-- As `step` (`qcoro/core/qcorosignal.h:244-400`), with the timer as `QTimer` keeps it. -/
def stepQ (q : Qt) (s : State α) (op : Op α) : State α :=
  if s.ub.isSome then s else
  match op with
  | .deliver =>
    if s.running then s else
    match s.posted with
    | [] => s
    | a :: rest => ({ s with posted := rest } : State α).slotQ q a
  | .fire =>
    if s.running then s else
    match s.timer with
    | none => s
    | some d => if d ≤ s.now then State.timeoutsQ q s.nconn { s with timer := none } else s
  | .next =>
    if s.running ∧ (s.gen = .fresh ∨ s.gen = .yielded) then
      let s1 := ({ s with running := false, cwait := true } : State α).emit (.next s.now)
      let s2 := s1.resumeGenQ q
      if s2.running then s2 else State.timeoutsQ q s2.pending s2
    else s
  | .pause => if s.running then State.timeoutsQ q s.pending { s with running := false } else s
  | op => step s op

/-- Bookkeeping of the model, no counterpart in /repo. -/
def execQ (q : Qt) (timeout : Int) (ops : List (Op α)) : State α := ops.foldl (stepQ q) { timeout := timeout }

theorem execQ_snoc (q : Qt) (t : Int) (ops : List (Op α)) (op : Op α) : execQ q t (ops ++ [op]) = stepQ q (execQ q t ops) op := by simp [execQ]

/-! ### The listener with the timeout that has the same effect -/

/-- Proof vocabulary, no counterpart in /repo. -/
def zap (t : Int) (n : Nat) : Nat := if t < 0 then 0 else n

theorem zap_zero (t : Int) : zap t 0 = 0 := by unfold zap; split <;> rfl
theorem zap_neg {t : Int} (h : t < 0) (n : Nat) : zap t n = 0 := if_pos h
theorem zap_pos {t : Int} (h : ¬ t < 0) (n : Nat) : zap t n = n := if_neg h

/-- Proof vocabulary, no counterpart in /repo. -/
def abs (q : Qt) (s : State α) : State α :=
  { s with timeout := Wait.effT q s.timeout, nconn := zap (Wait.effT q s.timeout) s.nconn }

/-- Proof vocabulary, no counterpart in /repo. -/
def J (q : Qt) (s : State α) : Prop := Wait.effT q s.timeout < 0 → s.timer = none ∧ s.pending = 0

theorem abs_toConsumer (q : Qt) (s : State α) (r : Option α) (j : J q s) : abs q (s.toConsumer r) = (abs q s).toConsumer r ∧ J q (s.toConsumer r) := by
  unfold State.toConsumer
  by_cases h : s.cwait = true
  · rw [if_pos h, if_pos (show (abs q s).cwait = true from h)]; exact ⟨rfl, j⟩
  · rw [if_neg h, if_neg (show ¬ (abs q s).cwait = true from h)]; exact ⟨rfl, j⟩

theorem abs_dequeue (q : Qt) (s : State α) (j : J q s) : abs q s.dequeue = (abs q s).dequeue ∧ J q s.dequeue := by
  obtain ⟨f1, f2, f3, f4, f5, qu, f7, f8, f9, f10, f11, f12, f13, f14, f15⟩ := s
  cases qu with
  | nil => exact abs_toConsumer q ⟨f1, f2, f3, f4, f5, [], f7, .done, f9, f10, f11, f12, f13, f14, f15⟩ none j
  | cons a r => exact abs_toConsumer q ⟨f1, f2, f3, f4, f5, r, f7, .yielded, f9, f10, f11, f12, f13, f14, f15⟩ (some a) j

theorem effT_cases (q : Qt) (t : Int) : (t > -1 ∧ 0 ≤ interval q t ∧ Wait.effT q t = interval q t) ∨
    (t > -1 ∧ interval q t < 0 ∧ Wait.effT q t = interval q t) ∨ (¬ t > -1 ∧ Wait.effT q t = t) := by
  unfold Wait.effT
  by_cases h : t > -1
  · rw [if_pos (by omega)]; omega
  · rw [if_neg (by omega)]; omega

theorem abs_awaitQueue (q : Qt) (s : State α) (j : J q s) : abs q (s.awaitQueueQ q) = (abs q s).awaitQueue ∧ J q (s.awaitQueueQ q) := by
  unfold State.awaitQueueQ State.awaitQueue
  by_cases h : s.alive = false ∨ s.queue ≠ []
  · rw [if_pos h, if_pos (show (abs q s).alive = false ∨ (abs q s).queue ≠ [] from h)]; exact abs_dequeue q s j
  · rw [if_neg h, if_neg (show ¬ ((abs q s).alive = false ∨ (abs q s).queue ≠ []) from h)]
    dsimp only
    rcases effT_cases q s.timeout with ⟨h1, h2, h3⟩ | ⟨h1, h2, h3⟩ | ⟨h1, h3⟩
    · rw [if_pos h1, if_pos h2, if_pos (show (abs q s).timeout > -1 by simp only [abs]; omega)]
      have h4 : ¬ Wait.effT q s.timeout < 0 := by omega
      refine ⟨?_, fun h => absurd h h4⟩
      have h5 : ¬ interval q s.timeout < 0 := by omega
      simp only [abs, h3, zap_pos h5]
    · rw [if_pos h1, if_neg (by omega), if_neg (show ¬ (abs q s).timeout > -1 by simp only [abs]; omega)]
      have h4 : Wait.effT q s.timeout < 0 := by omega
      have j4 := j h4
      refine ⟨?_, fun _ => ⟨rfl, j4.2⟩⟩
      simp only [abs, zap_neg h4, j4.1]
    · rw [if_neg h1, if_neg (show ¬ (abs q s).timeout > -1 by simp only [abs]; omega)]
      exact ⟨rfl, j⟩

theorem abs_resumeGen (q : Qt) (s : State α) (j : J q s) : abs q (s.resumeGenQ q) = (abs q s).resumeGen ∧ J q (s.resumeGenQ q) := by
  unfold State.resumeGenQ State.resumeGen
  rw [show (abs q s).gen = s.gen from rfl]
  cases s.gen with
  | fresh => exact abs_awaitQueue q s j
  | waiting t0 => exact abs_dequeue q s j
  | yielded => exact abs_awaitQueue q s j
  | done => exact ⟨rfl, j⟩
  | gone => exact ⟨rfl, j⟩

theorem abs_slot (q : Qt) (s : State α) (a : α) (j : J q s) : abs q (s.slotQ q a) = (abs q s).slot a ∧ J q (s.slotQ q a) := by
  unfold State.slotQ State.slot
  dsimp only
  have j1 : J q ({ s with timer := none, queue := s.queue ++ [a] } : State α) := fun h => ⟨rfl, (j h).2⟩
  by_cases h : s.awaiting = true
  · rw [if_pos h, if_pos (show (abs q s).awaiting = true from h)]; exact abs_resumeGen q _ j1
  · rw [if_neg h, if_neg (show ¬ (abs q s).awaiting = true from h)]; exact ⟨rfl, j1⟩

theorem timeout_kept (q : Qt) (s : State α) : (s.resumeGenQ q).timeout = s.timeout := by
  have h1 : ∀ (s : State α) r, (s.toConsumer r).timeout = s.timeout := by intro s r; unfold State.toConsumer; split <;> rfl
  have h2 : ∀ s : State α, s.dequeue.timeout = s.timeout := by intro s; unfold State.dequeue; split <;> rw [h1]
  have h3 : ∀ s : State α, (s.awaitQueueQ q).timeout = s.timeout := by
    intro s; unfold State.awaitQueueQ; split
    · exact h2 s
    · dsimp only; split <;> rfl
  unfold State.resumeGenQ
  split
  · exact h3 s
  · exact h2 s
  · exact h3 s
  · rfl
  · rfl

theorem abs_timeouts (q : Qt) : ∀ (n : Nat) (s : State α), J q s → (Wait.effT q s.timeout < 0 → n = 0) →
    abs q (State.timeoutsQ q n s) = State.timeouts n (abs q s) ∧ J q (State.timeoutsQ q n s)
  | 0, s, j, _ => ⟨rfl, fun h => ⟨(j h).1, rfl⟩⟩
  | n + 1, s, j, hn => by
    have hneg : ¬ Wait.effT q s.timeout < 0 := fun h => by have := hn h; omega
    unfold State.timeoutsQ State.timeouts
    rw [show (abs q s).ub = s.ub from rfl, show (abs q s).running = s.running from rfl]
    by_cases hu : s.ub.isSome = true
    · rw [if_pos hu, if_pos hu]; exact ⟨rfl, j⟩
    · rw [if_neg hu, if_neg hu]
      by_cases hr : s.running = true
      · rw [if_pos hr, if_pos hr]; exact ⟨rfl, fun h => absurd h hneg⟩
      · rw [if_neg hr, if_neg hr]
        have h1 := abs_resumeGen q ({ s with conn := false } : State α) j
        have h2 := abs_timeouts q n (({ s with conn := false } : State α).resumeGenQ q) h1.2 (by rw [timeout_kept]; exact fun h => absurd h hneg)
        rw [h1.1] at h2
        exact h2

theorem J_of (q : Qt) {s s' : State α} (j : J q s) (h1 : s'.timeout = s.timeout) (h2 : s'.timer = s.timer ∨ s'.timer = none) (h3 : s'.pending = s.pending ∨ s'.pending = 0) : J q s' := by
  intro h
  rw [h1] at h
  have := j h
  refine ⟨?_, ?_⟩
  · rcases h2 with h2 | h2
    · rw [h2]; exact this.1
    · exact h2
  · rcases h3 with h3 | h3
    · rw [h3]; exact this.2
    · exact h3

theorem abs_step (q : Qt) (s : State α) (j : J q s) (op : Op α) : abs q (stepQ q s op) = step (abs q s) op ∧ J q (stepQ q s op) := by
  by_cases hu : s.ub.isSome = true
  · have e1 : stepQ q s op = s := by unfold stepQ; rw [if_pos hu]
    have e2 : step (abs q s) op = abs q s := by unfold step; rw [if_pos (show (abs q s).ub.isSome = true from hu)]
    rw [e1, e2]; exact ⟨rfl, j⟩
  unfold stepQ step
  rw [if_neg hu, if_neg (show ¬ (abs q s).ub.isSome = true from hu)]
  cases op with
  | emit a =>
    dsimp only [step]; rw [if_neg hu]
    by_cases ha : s.alive = true
    · rw [if_pos ha, if_pos (show (abs q s).alive = true from ha)]
      by_cases hc : s.conn = true
      · rw [if_pos (show (s.emit (.emitted a s.now)).conn = true from hc), if_pos (show ((abs q s).emit (.emitted a (abs q s).now)).conn = true from hc)]
        exact ⟨rfl, J_of q j rfl (.inl rfl) (.inl rfl)⟩
      · rw [if_neg (show ¬ (s.emit (.emitted a s.now)).conn = true from hc), if_neg (show ¬ ((abs q s).emit (.emitted a (abs q s).now)).conn = true from hc)]
        exact ⟨rfl, J_of q j rfl (.inl rfl) (.inl rfl)⟩
    · rw [if_neg ha, if_neg (show ¬ (abs q s).alive = true from ha)]; exact ⟨rfl, j⟩
  | destroyObj =>
    dsimp only [step]; rw [if_neg hu]
    by_cases ha : s.alive = true
    · rw [if_pos ha, if_pos (show (abs q s).alive = true from ha)]
      refine ⟨?_, J_of q j rfl (.inl rfl) (.inr rfl)⟩
      simp only [abs, State.emit, zap_zero]
    · rw [if_neg ha, if_neg (show ¬ (abs q s).alive = true from ha)]; exact ⟨rfl, j⟩
  | time d => dsimp only [step]; rw [if_neg hu]; exact ⟨rfl, J_of q j rfl (.inl rfl) (.inl rfl)⟩
  | wake =>
    dsimp only [step]; rw [if_neg hu]
    by_cases h : s.running = false ∧ s.cwait = false
    · rw [if_pos h, if_pos (show (abs q s).running = false ∧ (abs q s).cwait = false from h)]; exact ⟨rfl, J_of q j rfl (.inl rfl) (.inl rfl)⟩
    · rw [if_neg h, if_neg (show ¬ ((abs q s).running = false ∧ (abs q s).cwait = false) from h)]; exact ⟨rfl, j⟩
  | drop =>
    dsimp only [step]; rw [if_neg hu]
    by_cases h : s.running = true ∧ s.gen ≠ .gone
    · rw [if_pos h, if_pos (show (abs q s).running = true ∧ (abs q s).gen ≠ .gone from h)]
      refine ⟨?_, J_of q j rfl (.inr rfl) (.inr rfl)⟩
      simp only [abs, State.emit, zap_zero]
    · rw [if_neg h, if_neg (show ¬ ((abs q s).running = true ∧ (abs q s).gen ≠ .gone) from h)]; exact ⟨rfl, j⟩
  | deliver =>
    dsimp only
    rw [show (abs q s).running = s.running from rfl, show (abs q s).posted = s.posted from rfl]
    by_cases hr : s.running = true
    · rw [if_pos hr, if_pos hr]; exact ⟨rfl, j⟩
    · rw [if_neg hr, if_neg hr]
      cases s.posted with
      | nil => exact ⟨rfl, j⟩
      | cons a rest => exact abs_slot q ({ s with posted := rest } : State α) a j
  | fire =>
    dsimp only
    rw [show (abs q s).running = s.running from rfl, show (abs q s).timer = s.timer from rfl, show (abs q s).now = s.now from rfl]
    by_cases hr : s.running = true
    · rw [if_pos hr, if_pos hr]; exact ⟨rfl, j⟩
    · rw [if_neg hr, if_neg hr]
      cases ht : s.timer with
      | none => exact ⟨rfl, j⟩
      | some d =>
        have hneg : ¬ Wait.effT q s.timeout < 0 := fun h => by have := (j h).1; rw [ht] at this; cases this
        dsimp only
        by_cases hd : d ≤ s.now
        · rw [if_pos hd, if_pos hd]
          have := abs_timeouts q s.nconn ({ s with timer := none } : State α) (fun h => absurd h hneg) (fun h => absurd h hneg)
          rw [this.1]
          refine ⟨?_, this.2⟩
          simp only [abs, zap_pos hneg]
        · rw [if_neg hd, if_neg hd]; exact ⟨rfl, j⟩
  | next =>
    dsimp only
    by_cases h : s.running = true ∧ (s.gen = .fresh ∨ s.gen = .yielded)
    · rw [if_pos h, if_pos (show (abs q s).running = true ∧ ((abs q s).gen = .fresh ∨ (abs q s).gen = .yielded) from h)]
      have h1 := abs_resumeGen q (({ s with running := false, cwait := true } : State α).emit (.next s.now)) (J_of q j rfl (.inl rfl) (.inl rfl))
      have e : abs q (({ s with running := false, cwait := true } : State α).emit (.next s.now)) =
        ({ (abs q s) with running := false, cwait := true } : State α).emit (.next (abs q s).now) := rfl
      rw [e] at h1
      rw [← h1.1]
      generalize (({ s with running := false, cwait := true } : State α).emit (.next s.now)).resumeGenQ q = s2 at *
      rw [show (abs q s2).running = s2.running from rfl, show (abs q s2).pending = s2.pending from rfl]
      by_cases hr : s2.running = true
      · rw [if_pos hr, if_pos hr]; exact ⟨rfl, h1.2⟩
      · rw [if_neg hr, if_neg hr]; exact abs_timeouts q s2.pending s2 h1.2 (fun h => (h1.2 h).2)
    · rw [if_neg h, if_neg (show ¬ ((abs q s).running = true ∧ ((abs q s).gen = .fresh ∨ (abs q s).gen = .yielded)) from h)]; exact ⟨rfl, j⟩
  | pause =>
    dsimp only
    rw [show (abs q s).running = s.running from rfl, show (abs q s).pending = s.pending from rfl]
    by_cases hr : s.running = true
    · rw [if_pos hr, if_pos hr]
      exact abs_timeouts q s.pending ({ s with running := false } : State α) (J_of q j rfl (.inl rfl) (.inl rfl)) (fun h => (j h).2)
    · rw [if_neg hr, if_neg hr]; exact ⟨rfl, j⟩

theorem abs_exec (q : Qt) (t : Int) (ops : List (Op α)) : abs q (execQ q t ops) = exec (Wait.effT q t) ops ∧ J q (execQ q t ops) := by
  induction ops using snocInd with
  | nil =>
    refine ⟨?_, fun _ => ⟨rfl, rfl⟩⟩
    simp only [execQ, exec, List.foldl_nil, abs, zap_zero]
  | snoc ops op ih =>
    rw [execQ_snoc, exec_snoc, ← ih.1]; exact abs_step q _ ih.2 op

/-- **C86 for a signal listener.** Everything that happens to the iterating coroutine, undefined behaviour included, is what happens with the timeout that
`QTimer` makes of the given one: the same if it is negative or shorter than 2^31 ms, modulo 2^32 if that is less than 2^31, none otherwise. -/
theorem C86_listener (t : Int) (ops : List (Op α)) :
    (t < 2 ^ 31 → (execQ .narrow t ops).log = (exec t ops).log ∧ (execQ .narrow t ops).ub = (exec t ops).ub) ∧
    (0 ≤ t → t % 2 ^ 32 < 2 ^ 31 → (execQ .narrow t ops).log = (exec (t % 2 ^ 32) ops).log ∧ (execQ .narrow t ops).ub = (exec (t % 2 ^ 32) ops).ub) ∧
    (2 ^ 31 ≤ t % 2 ^ 32 → ∃ t' < 0, (execQ .narrow t ops).log = (exec t' ops).log ∧ (execQ .narrow t ops).ub = (exec t' ops).ub) ∧
    (execQ .wide t ops).log = (exec t ops).log ∧ (execQ .wide t ops).ub = (exec t ops).ub := by
  have key : ∀ q, (execQ q t ops).log = (exec (Wait.effT q t) ops).log ∧ (execQ q t ops).ub = (exec (Wait.effT q t) ops).ub := by
    intro q; rw [← (abs_exec q t ops).1]; exact ⟨rfl, rfl⟩
  refine ⟨fun h => ?_, fun h0 h => ?_, fun h => ?_, ?_⟩
  · have := key .narrow
    have e : Wait.effT .narrow t = t := by
      unfold Wait.effT; split
      · exact interval_short _ _ (by omega) h
      · rfl
    rwa [e] at this
  · have := key .narrow
    have e : Wait.effT .narrow t = t % 2 ^ 32 := by unfold Wait.effT; rw [if_pos h0]; exact (interval_cases t).1 h
    rwa [e] at this
  · refine ⟨Wait.effT .narrow t, ?_, key .narrow⟩
    unfold Wait.effT; split
    · exact (interval_cases t).2 h
    · omega
  · have := key .wide
    have e : Wait.effT .wide t = t := by unfold Wait.effT; split <;> rfl
    rwa [e] at this

/-- A listener with a timeout of 2^31 to 2^32 - 1 ms (modulo 2^32) never ends as long as the object lives, however long nothing is emitted. -/
theorem C86_listener_never (t : Int) (ht : 2 ^ 31 ≤ t % 2 ^ 32) (ops : List (Op α)) (hd : ∀ n, .destroyed n ∉ (execQ .narrow t ops).log) (now : Nat) :
    .got none now ∉ (execQ .narrow t ops).log := by
  obtain ⟨t', h, e, _⟩ := (C86_listener t ops).2.2.1 ht
  rw [e] at hd ⊢
  exact C34_no_timeout_never_ends t' h ops hd now

/-- Found: a loop over a listener with a timeout of 2^32 ms (about 50 days) ends at once. -/
theorem C86_found_listener_early : (execQ .narrow (2 ^ 32) [.next, .fire] : State Nat).log = [.next 0, .got none 0] := by decide

/-- A month, a value, and 2^40 ms later nothing has ended. -/
example : .got none (2 ^ 40) ∉ (execQ .narrow (2 ^ 31 + 7) [.next, .emit 3, .deliver, .next, .time (2 ^ 40), .fire] : State Nat).log :=
  C86_listener_never (2 ^ 31 + 7) (by decide) _
    (by rw [show (execQ .narrow (2 ^ 31 + 7) [.next, .emit 3, .deliver, .next, .time (2 ^ 40), .fire] : State Nat).log = [.next 0, .emitted 3 0, .got (some 3) 0, .next 0] by decide]; simp) _
example : (execQ .narrow (2 ^ 32 + 5) [.next, .time 4, .fire] : State Nat).log = [.next 0] ∧
    (execQ .narrow (2 ^ 32 + 5) [.next, .time 5, .fire] : State Nat).log = [.next 0, .got none 5] := by decide

end QCoro.Listener
