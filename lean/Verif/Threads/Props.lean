import Verif.Util.Basic
/-
Properties that involve several threads: C43 (moveToThread), C57 (reference counting), C58 (awaiting a Task that
completes on another thread).  Every model is an interleaving of the atomic steps of the threads (sequential consistency).
-/

/-! ### C57: the reference count -/
namespace QCoro.RefCount

/-- Owners of references, by thread, and what is left of `derefCoroutine` in the thread that released the last one.
(`qcoro/impl/taskpromisebase.h:17-20,53-67`). -/
structure State where
  count : Nat := 1              -- `mRefCount` (`std::atomic`), initially 1 (`qcoro/impl/taskpromisebase.h:17-20`)
  owners : List Nat := [0]      -- thread that owns each reference
  last : List Nat := []         -- threads that are between the decrement to 0 and `destroyCoroutine`
  destroyed : List Nat := []    -- threads that destroyed the frame, in order

/-- Atomic steps of thread `t`. (`qcoro/impl/taskpromisebase.h:53-67`, lines cited at each case). -/
inductive Op
  | ref (t u : Nat)     -- `refCoroutine` (`:59-61`) by an owner `t`; the new reference is for thread `u`
  | deref (t : Nat)     -- `--mRefCount == 0` in `derefCoroutine` (`:53-57`), by an owner `t`
  | destroy (t : Nat)   -- `destroyCoroutine` (`:63-67`), entered by a thread whose decrement gave 0
  | pass (t u : Nat)    -- `t` hands one of its references to thread `u` (a Task moved to another thread)
deriving DecidableEq

/-- (`qcoro/impl/taskpromisebase.h:53-67`; `++` and `--` of `std::atomic` are atomic steps.) -/
def step (s : State) : Op → State
  | .ref t u =>
    if t ∈ s.owners then { s with count := s.count + 1, owners := u :: s.owners } else s
  | .deref t =>
    if t ∈ s.owners then
      { s with count := s.count - 1, owners := s.owners.erase t, last := if s.count - 1 = 0 then t :: s.last else s.last }
    else s
  | .destroy t =>
    if t ∈ s.last then { s with count := 0, last := s.last.erase t, destroyed := s.destroyed ++ [t] } else s
  | .pass t u => if t ∈ s.owners then { s with owners := u :: s.owners.erase t } else s

/-- Bookkeeping of the model, no counterpart in /repo. -/
def exec (ops : List Op) : State := ops.foldl step {}

theorem exec_snoc (ops : List Op) (op : Op) : exec (ops ++ [op]) = step (exec ops) op := by simp [exec]

/-- Proof invariant, no counterpart in /repo. -/
structure Inv (s : State) : Prop where
  count : s.count = s.owners.length
  one : (s.owners ≠ [] ∧ s.last = [] ∧ s.destroyed = []) ∨ (s.owners = [] ∧ ∃ t, (s.last = [t] ∧ s.destroyed = []) ∨ (s.last = [] ∧ s.destroyed = [t]))

theorem inv_exec (ops : List Op) : Inv (exec ops) := by
  induction ops using snocInd with
  | nil => exact ⟨rfl, .inl (by simp [exec])⟩
  | snoc ops op ih =>
    rw [exec_snoc]
    generalize exec ops = s at *
    obtain ⟨h2, h3⟩ := ih
    cases op with
    | ref t u =>
      simp only [step]; split
      · rename_i hm
        rcases h3 with ⟨a, b, c⟩ | ⟨a, _⟩
        · exact ⟨by simp [h2], .inl ⟨by simp, b, c⟩⟩
        · simp [a] at hm
      · exact ⟨h2, h3⟩
    | deref t =>
      simp only [step]; split
      · rename_i hm
        rcases h3 with ⟨a, b, c⟩ | ⟨a, _⟩
        · have hl := List.length_erase_of_mem hm
          refine ⟨by simp [h2, hl], ?_⟩
          by_cases h0 : s.count - 1 = 0
          · right
            refine ⟨List.eq_nil_of_length_eq_zero (by simp [hl]; omega), t, .inl ⟨by simp [h0, b], c⟩⟩
          · left
            refine ⟨?_, by simp [h0, b], c⟩
            intro e
            have := congrArg List.length e
            simp [hl] at this; omega
        · simp [a] at hm
      · exact ⟨h2, h3⟩
    | destroy t =>
      simp only [step]; split
      · rename_i hm
        rcases h3 with ⟨a, b, c⟩ | ⟨a, u, ⟨b, c⟩ | ⟨b, c⟩⟩
        · simp [b] at hm
        · rw [b] at hm; simp at hm; subst hm
          exact ⟨by simp [a], .inr ⟨a, t, .inr ⟨by simp [b], by simp [c]⟩⟩⟩
        · simp [b] at hm
      · exact ⟨h2, h3⟩
    | pass t u =>
      simp only [step]; split
      · rename_i hm
        have hl := List.length_erase_of_mem hm
        have := List.length_pos_of_mem hm
        refine ⟨by simp [h2, hl]; omega, ?_⟩
        rcases h3 with ⟨a, b, c⟩ | ⟨a, _⟩
        · exact .inl ⟨by simp, b, c⟩
        · simp [a] at hm
      · exact ⟨h2, h3⟩

/-- For any number of threads and every interleaving of their steps: once the frame is destroyed nobody can touch it any more (all further
steps of all threads have no effect, since nobody owns a reference), and it is destroyed at most once. -/
theorem C57_safe (ops : List Op) : (exec ops).destroyed.length ≤ 1 ∧ ((exec ops).destroyed ≠ [] → ∀ more, exec (ops ++ more) = exec ops) := by
  have h := inv_exec ops
  refine ⟨?_, fun hd more => ?_⟩
  · rcases h.one with ⟨_, _, c⟩ | ⟨_, t, ⟨_, c⟩ | ⟨_, c⟩⟩ <;> simp [c]
  · have hw : (exec ops).owners = [] ∧ (exec ops).last = [] := by
      rcases h.one with ⟨_, _, c⟩ | ⟨a, t, ⟨_, c⟩ | ⟨b, c⟩⟩
      · exact absurd c hd
      · exact absurd c hd
      · exact ⟨a, b⟩
    induction more using snocInd with
    | nil => simp
    | snoc more op ih =>
      rw [← List.append_assoc, exec_snoc, ih]
      cases op <;> simp [step, hw.1, hw.2]

/-- It is not destroyed while anyone owns a reference. -/
theorem C57_not_early (ops : List Op) (h : (exec ops).owners ≠ []) : (exec ops).destroyed = [] ∧ (exec ops).last = [] := by
  rcases (inv_exec ops).one with ⟨_, b, c⟩ | ⟨a, _⟩
  · exact ⟨c, b⟩
  · exact absurd a h

/-- When the last reference is gone exactly one thread goes on to destroy it, and when that thread has made its step the frame
is destroyed, exactly once. -/
theorem C57_destroyed (ops : List Op) (h : (exec ops).owners = []) :
    ∃ t, ((exec ops).last = [t] ∧ (exec (ops ++ [.destroy t])).destroyed = [t]) ∨ (exec ops).destroyed = [t] := by
  rcases (inv_exec ops).one with ⟨a, _⟩ | ⟨_, t, ⟨b, c⟩ | ⟨_, c⟩⟩
  · exact absurd h a
  · exact ⟨t, .inl ⟨b, by rw [exec_snoc]; simp [step, b, c]⟩⟩
  · exact ⟨t, .inr c⟩

/-- The destroying thread is one that released a reference. -/
theorem C57_by_a_releaser (ops : List Op) (t : Nat) (h : t ∈ (exec ops).destroyed ∨ t ∈ (exec ops).last) : .deref t ∈ ops := by
  induction ops using snocInd with
  | nil => simp [exec] at h
  | snoc ops op ih =>
    rw [exec_snoc] at h
    have ih : (t ∈ (exec ops).destroyed ∨ t ∈ (exec ops).last) → Op.deref t ∈ ops ++ [op] := fun x => by simp [ih x]
    cases op with
    | ref a b => apply ih; simp only [step] at h; split at h <;> exact h
    | pass a b => apply ih; simp only [step] at h; split at h <;> exact h
    | deref a =>
      simp only [step] at h; split at h
      · by_cases h0 : (exec ops).count - 1 = 0
        · simp [h0] at h
          rcases h with h | h | h
          · exact ih (.inl h)
          · simp [h]
          · exact ih (.inr h)
        · simp [h0] at h; exact ih h
      · exact ih h
    | destroy a =>
      simp only [step] at h; split at h
      · rename_i hm
        simp at h
        rcases h with (h | h) | h
        · exact ih (.inl h)
        · subst h; exact ih (.inr hm)
        · exact ih (.inr (List.mem_of_mem_erase h))
      · exact ih h

/-- Three references in three threads, released concurrently. -/
example : let s := exec [.ref 0 1, .ref 1 2, .deref 1, .pass 2 3, .deref 0, .deref 3, .destroy 3]
    (s.destroyed, s.count) = ([3], 0) := by decide
example : (exec [.ref 0 1, .deref 0]).destroyed = [] ∧ (exec [.ref 0 1, .deref 0]).owners = [1] := by decide

end QCoro.RefCount

/-! ### C58: awaiting a Task that completes on another thread -/
namespace QCoro.CrossAwait

/-- One Task; any number of coroutines await it, each on its own thread; one thread completes it.
(`qcoro/impl/taskpromisebase.h:26-28,45-47`, `qcoro/impl/taskfinalsuspend.h:16-30`.) -/
structure State where
  done : Bool := false            -- `coroutine_handle::done()`: suspended at its final suspend point
  awaiting : List Nat := []       -- `mAwaitingCoroutines`
  snapshot : List Nat := []       -- the copy in `TaskFinalSuspend`
  fin : Nat := 0                  -- progress of the completing thread (0..3)
  pc : Nat → Nat := fun _ => 0    -- progress of awaiter i: 0 before `await_ready`, 1 it said false, 2 past the await expression's checks
  cont : List Nat := []           -- awaiters that continued, in order

/-- Atomic steps of the awaiting threads and of the completing one, with their lines. -/
inductive Op
  | check (i : Nat)   -- `await_ready` (`qcoro/impl/taskawaiterbase.h:18-20`): continues at once if done
  | add (i : Nat)     -- `await_suspend` → `addAwaitingCoroutine` (`:23-30`, `taskpromisebase.h:45-47`)
  | snap              -- `final_suspend()` copies the awaiters (`taskpromisebase.h:26-28`, `taskfinalsuspend.h:16-17`)
  | mark              -- the coroutine is suspended at its final suspend point: `done()`
  | resume            -- `TaskFinalSuspend::await_suspend` resumes the copied awaiters (`taskfinalsuspend.h:24-30`)
deriving DecidableEq

/-- (`qcoro/impl/taskawaiterbase.h:18-30`, `qcoro/impl/taskpromisebase.h:26-28,45-47`, `qcoro/impl/taskfinalsuspend.h:16-30`.) Simplification: `std::vector::push_back` is one step. -/
def step (s : State) : Op → State
  | .check i =>
    if s.pc i = 0 then
      { s with pc := upd s.pc i (if s.done then 2 else 1), cont := if s.done then s.cont ++ [i] else s.cont }
    else s
  | .add i => if s.pc i = 1 then { s with pc := upd s.pc i 2, awaiting := s.awaiting ++ [i] } else s
  | .snap => if s.fin = 0 then { s with fin := 1, snapshot := s.awaiting } else s
  | .mark => if s.fin = 1 then { s with fin := 2, done := true } else s
  | .resume => if s.fin = 2 then { s with fin := 3, cont := s.cont ++ s.snapshot } else s

/-- Bookkeeping of the model, no counterpart in /repo. -/
def exec (ops : List Op) : State := ops.foldl step {}

theorem exec_snoc (ops : List Op) (op : Op) : exec (ops ++ [op]) = step (exec ops) op := by simp [exec]

/-- Awaiter `i` of the history: `check i` is its first check, made before the Task was done, and its registration came after the
completing thread had copied the list. Specification vocabulary, no counterpart in /repo. -/
def Missed (ops : List Op) (i : Nat) : Prop :=
  ∃ p q r, ops = p ++ .snap :: q ++ .add i :: r ∧ (exec p).fin = 0 ∧ (exec (p ++ .snap :: q)).pc i = 1

/-- Proof invariant, no counterpart in /repo. -/
structure Inv (ops : List Op) (s : State) : Prop where
  done : s.done = true ↔ 2 ≤ s.fin
  fin : s.fin ≤ 3
  pc : ∀ i, s.pc i ≤ 2
  snap0 : s.fin = 0 → s.snapshot = []
  nodup : s.awaiting.Nodup
  sub : ∃ l, s.awaiting = s.snapshot ++ l ∨ s.fin = 0
  reg : ∀ i, i ∈ s.awaiting → s.pc i = 2
  snapsub : ∀ i ∈ s.snapshot, i ∈ s.awaiting
  cnt : ∀ i, s.cont.count i = if s.pc i = 2 ∧ i ∉ s.awaiting then 1 else if s.fin = 3 ∧ i ∈ s.snapshot then 1 else 0
  miss : ∀ i, 0 < s.fin → (i ∈ s.awaiting ∧ i ∉ s.snapshot ↔ Missed ops i)
  miss0 : s.fin = 0 → ∀ i, ¬ Missed ops i
  dir : ∀ i, s.pc i = 2 → i ∉ s.awaiting → 2 ≤ s.fin

theorem missed_snoc (ops : List Op) (op : Op) (i : Nat) :
    Missed (ops ++ [op]) i ↔ Missed ops i ∨ (op = .add i ∧ (exec ops).pc i = 1 ∧ ∃ p q, ops = p ++ .snap :: q ∧ (exec p).fin = 0) := by
  constructor
  · rintro ⟨p, q, r, e, h1, h2⟩
    rcases List.eq_nil_or_concat r with hr | ⟨r', x, hr⟩
    · subst hr
      have e' : ops = p ++ .snap :: q ∧ [op] = [.add i] := List.append_inj' (by simpa using e) rfl
      right
      simp at e'
      refine ⟨e'.2, by rw [e'.1]; exact h2, p, q, e'.1, h1⟩
    · subst hr
      have e' : ops = p ++ .snap :: q ++ .add i :: r' ∧ [op] = [x] := List.append_inj' (by simpa using e) rfl
      exact .inl ⟨p, q, r', e'.1, h1, h2⟩
  · rintro (⟨p, q, r, e, h1, h2⟩ | ⟨rfl, h, p, q, e, h1⟩)
    · exact ⟨p, q, r ++ [op], by simp [e], h1, h2⟩
    · exact ⟨p, q, [], by simp [e], h1, by rw [← e]; exact h⟩

theorem snapped (ops : List Op) : 0 < (exec ops).fin ↔ ∃ p q, ops = p ++ .snap :: q ∧ (exec p).fin = 0 := by
  induction ops using snocInd with
  | nil => simp [exec]
  | snoc ops op ih =>
    rw [exec_snoc]
    have grow : (exec ops).fin ≤ (step (exec ops) op).fin := by
      cases op <;> simp only [step] <;> split <;> simp <;> omega
    constructor
    · intro h
      by_cases h0 : 0 < (exec ops).fin
      · obtain ⟨p, q, e, hp⟩ := ih.1 h0
        exact ⟨p, q ++ [op], by simp [e], hp⟩
      · have h0 : (exec ops).fin = 0 := by omega
        cases op with
        | snap => exact ⟨ops, [], rfl, h0⟩
        | check i => simp only [step] at h; split at h <;> simp [h0] at h
        | add i => simp only [step] at h; split at h <;> simp [h0] at h
        | mark => simp [step, h0] at h
        | resume => simp [step, h0] at h
    · rintro ⟨p, q, e, hp⟩
      rcases List.eq_nil_or_concat q with hq | ⟨q', x, hq⟩
      · subst hq
        have := List.append_inj' (s₁ := ops) (t₁ := [op]) (s₂ := p) (t₂ := [.snap]) (by simpa using e) rfl
        obtain ⟨rfl, h⟩ := this
        simp at h; subst h
        simp [step, hp]
      · subst hq
        have := List.append_inj' (s₁ := ops) (t₁ := [op]) (s₂ := p ++ .snap :: q') (t₂ := [x]) (by simpa using e) rfl
        exact Nat.lt_of_lt_of_le (ih.2 ⟨p, q', this.1, hp⟩) grow

theorem inv_exec (ops : List Op) : Inv ops (exec ops) := by
  induction ops using snocInd with
  | nil =>
    refine ⟨by simp [exec], by simp [exec], by simp [exec], by simp [exec], by simp [exec], ⟨[], by simp [exec]⟩, by simp [exec],
      by simp [exec], by simp [exec], by simp [exec], ?_, by simp [exec]⟩
    rintro _ i ⟨p, q, r, e, _⟩
    simp at e
  | snoc ops op ih =>
    have hs := snapped ops
    have hm := fun i => missed_snoc ops op i
    rw [exec_snoc]
    generalize exec ops = s at *
    obtain ⟨h1, h2, h3, h4, h5, h6, h7, h8, h9, h10, h11, h12⟩ := ih
    have stay : (∀ i, op ≠ .add i) → Missed (ops ++ [op]) = Missed ops := by
      intro h; funext i; rw [hm]; simp [h i]
    cases op with
    | check i =>
      simp only [step]
      by_cases hp : s.pc i = 0
      · rw [if_pos hp]
        have hna : i ∉ s.awaiting := fun h => by have := h7 i h; omega
        refine ⟨h1, h2, ?_, h4, h5, h6, ?_, h8, ?_, ?_, ?_, ?_⟩
        · intro j; simp only [upd_apply]; split
          · split <;> omega
          · exact h3 j
        · intro j hj; have : j ≠ i := fun e => hna (e ▸ hj); simp only [upd_other _ _ this]; exact h7 j hj
        · intro j
          have hns : i ∉ s.snapshot := fun h => hna (h8 i h)
          by_cases hj : j = i
          · subst hj
            have := h9 j
            simp only [upd_same, hp, hna, hns] at this ⊢
            by_cases hd : s.done = true
            · simp_all
            · simp_all
          · have := h9 j
            simp only [upd_other _ _ hj]
            by_cases hd : s.done = true
            · simp [hd, List.count_append, List.count_singleton, Ne.symm hj, this]
            · simp [hd, this]
        · rw [stay (by simp)]; exact h10
        · rw [stay (by simp)]; exact h11
        · intro j hj1 hj2
          simp only [upd_apply] at hj1
          split at hj1
          · rename_i e; subst e
            by_cases hd : s.done = true
            · exact h1.1 hd
            · simp [hd] at hj1
          · exact h12 j hj1 hj2
      · rw [if_neg hp]
        refine ⟨h1, h2, h3, h4, h5, h6, h7, h8, h9, ?_, ?_, h12⟩ <;> rw [stay (by simp)] <;> assumption
    | add i =>
      simp only [step]
      by_cases hp : s.pc i = 1
      · rw [if_pos hp]
        have hna : i ∉ s.awaiting := fun h => by have := h7 i h; omega
        have hns : i ∉ s.snapshot := fun h => hna (h8 i h)
        refine ⟨h1, h2, ?_, h4, ?_, ?_, ?_, ?_, ?_, ?_, ?_, ?_⟩
        · intro j; simp only [upd_apply]; split
          · omega
          · exact h3 j
        · rw [List.nodup_append]; simp [h5]; exact fun a ha e => hna (e ▸ ha)
        · obtain ⟨l, h | h⟩ := h6
          · exact ⟨l ++ [i], .inl (by simp [h])⟩
          · exact ⟨[], .inr h⟩
        · intro j hj
          simp only [List.mem_append, List.mem_singleton] at hj
          simp only [upd_apply]; split
          · rfl
          · rename_i hne; exact h7 j (hj.resolve_right hne)
        · intro j hj; simp [h8 j hj]
        · intro j
          have := h9 j
          by_cases hj : j = i
          · subst hj; simp_all
          · simp only [upd_other _ _ hj, List.mem_append, List.mem_singleton, hj, or_false]; exact this
        · intro j h0
          rw [hm]
          by_cases hj : j = i
          · subst hj
            exact ⟨fun _ => .inr ⟨rfl, hp, hs.1 h0⟩, fun _ => ⟨by simp, hns⟩⟩
          · have := h10 j h0
            simp only [List.mem_append, List.mem_singleton, hj, or_false]
            rw [this]
            constructor
            · exact .inl
            · rintro (h | ⟨h, _⟩)
              · exact h
              · exact absurd (by injection h with h; exact h.symm) hj
        · intro h0 j
          rw [hm]
          rintro (h | ⟨_, _, h⟩)
          · exact h11 h0 j h
          · have := hs.2 h; exact absurd h0 (Nat.pos_iff_ne_zero.1 this)
        · intro j hj1 hj2
          simp only [List.mem_append, List.mem_singleton, not_or] at hj2
          simp only [upd_other _ _ hj2.2] at hj1
          exact h12 j hj1 hj2.1
      · rw [if_neg hp]
        refine ⟨h1, h2, h3, h4, h5, h6, h7, h8, h9, ?_, ?_, h12⟩
        · intro j h0
          rw [hm, h10 j h0]
          constructor
          · exact .inl
          · rintro (h | ⟨h, h', _⟩)
            · exact h
            · injection h with h; subst h; exact absurd h' hp
        · intro h0 j
          rw [hm]
          rintro (h | ⟨_, _, h⟩)
          · exact h11 h0 j h
          · have := hs.2 h; omega
    | snap =>
      simp only [step]
      by_cases hf : s.fin = 0
      · rw [if_pos hf]
        have hd : s.done = false := by
          cases hd : s.done with
          | false => rfl
          | true => have := h1.1 hd; omega
        refine ⟨by simp [hd], by simp, h3, by simp, h5, ⟨[], by simp⟩, h7, fun i h => h, ?_, ?_, by simp, ?_⟩
        · intro i; have := h9 i; simp only [hf] at this; simp [this]
        · intro i _; rw [stay (by simp)]; simp; exact h11 hf i
        · intro i h h'; have := h12 i h h'; omega
      · rw [if_neg hf]
        refine ⟨h1, h2, h3, h4, h5, h6, h7, h8, h9, ?_, ?_, h12⟩ <;> rw [stay (by simp)] <;> assumption
    | mark =>
      simp only [step]
      by_cases hf : s.fin = 1
      · rw [if_pos hf]
        refine ⟨by simp, by simp, h3, by simp, h5, ?_, h7, h8, ?_, ?_, by simp, fun i h h' => by simp⟩
        · obtain ⟨l, h | h⟩ := h6
          · exact ⟨l, .inl h⟩
          · omega
        · intro i; have := h9 i; simp only [hf] at this; simp [this]
        · intro i _; rw [stay (by simp)]; exact h10 i (by omega)
      · rw [if_neg hf]
        refine ⟨h1, h2, h3, h4, h5, h6, h7, h8, h9, ?_, ?_, h12⟩ <;> rw [stay (by simp)] <;> assumption
    | resume =>
      simp only [step]
      by_cases hf : s.fin = 2
      · rw [if_pos hf]
        obtain ⟨l, h6 | h6⟩ := h6
        · refine ⟨by simp [h1, hf], by simp, h3, by simp, h5, ⟨l, .inl h6⟩, h7, h8, ?_, ?_, by simp, fun i h h' => by simp⟩
          · intro i
            have := h9 i
            rw [h6] at h5
            have hnd : s.snapshot.Nodup := (List.nodup_append.1 h5).1
            rw [List.count_append, this]
            by_cases hi : i ∈ s.snapshot
            · have h8i := h8 i hi
              have : s.snapshot.count i = 1 := by rw [hnd.count]; simp [hi]
              simp [hi, this, h8i, hf]
            · have : s.snapshot.count i = 0 := List.count_eq_zero.2 hi
              simp [hi, this, hf]
          · intro i _; rw [stay (by simp)]; exact h10 i (by omega)
        · omega
      · rw [if_neg hf]
        refine ⟨h1, h2, h3, h4, h5, h6, h7, h8, h9, ?_, ?_, h12⟩ <;> rw [stay (by simp)] <;> assumption

/-- When the Task is completed and its awaiters resumed, and awaiter `i` has executed its `co_await` up to the suspension:
for every interleaving it has continued exactly once, unless its registration came after the list was copied, in which case it never
continues. -/
theorem C58_continues_iff_not_missed (ops : List Op) (i : Nat) (hf : (exec ops).fin = 3) (hi : (exec ops).pc i = 2) :
    (Missed ops i → (exec ops).cont.count i = 0) ∧ (¬ Missed ops i → (exec ops).cont.count i = 1) := by
  have h := inv_exec ops
  have hc := h.cnt i
  have hmi := h.miss i (by omega)
  constructor
  · intro hm
    obtain ⟨h1, h2⟩ := hmi.2 hm
    rw [hc]; simp [h1, h2]
  · intro hm
    rw [hc]
    by_cases ha : i ∈ (exec ops).awaiting
    · have : i ∈ (exec ops).snapshot := by
        cases Classical.em (i ∈ (exec ops).snapshot) with
        | inl h => exact h
        | inr h => exact absurd (hmi.1 ⟨ha, h⟩) hm
      simp [ha, this, hf]
    · simp [hi, ha]

/-- At no time has anyone continued twice. -/
theorem C58_never_twice (ops : List Op) (i : Nat) : (exec ops).cont.count i ≤ 1 := by
  rw [(inv_exec ops).cnt i]; split
  · omega
  · split <;> omega

/-- Found: check and registration are not atomic: the awaiter checks, the Task completes, the awaiter registers — lost. -/
theorem C58_lost_wakeup : let ops := [Op.check 5, .snap, .mark, .resume, .add 5]
    Missed ops 5 ∧ (exec ops).fin = 3 ∧ (exec ops).pc 5 = 2 ∧ (exec ops).cont = [] :=
  ⟨⟨[.check 5], [.mark, .resume], [], rfl, rfl, rfl⟩, rfl, rfl, rfl⟩

/-- … and it stays lost, whatever happens afterwards. -/
theorem C58_lost_for_ever (ops ops' : List Op) (i : Nat) (h : Missed ops i) : (exec (ops ++ ops')).cont.count i = 0 := by
  have hm : Missed (ops ++ ops') i := by
    obtain ⟨p, q, r, e, h1, h2⟩ := h
    exact ⟨p, q, r ++ ops', by simp [e], h1, h2⟩
  have hi := inv_exec (ops ++ ops')
  have h0 : 0 < (exec (ops ++ ops')).fin := by
    apply Nat.pos_of_ne_zero; intro e; exact hi.miss0 e i hm
  obtain ⟨h1, h2⟩ := (hi.miss i h0).2 hm
  rw [hi.cnt i]; simp [h1, h2]

/-- Registered before the completion starts, or checked after it is done: continued exactly once. -/
example : (exec [.check 1, .add 1, .snap, .check 2, .mark, .check 3, .resume, .add 2]).cont = [3, 1] := by decide

end QCoro.CrossAwait

/-! ### C43: moveToThread -/
namespace QCoro.Move

/-- Models Qt (documented behaviour), not code of /repo: life of a `QThread`. -/
inductive Th | fresh | running | finished
deriving DecidableEq, Repr

/-- A coroutine in `co_await QCoro::moveToThread(thread)`, made on the home thread. (`qcoro/core/qcorothread.cpp:20-84`). -/
structure State where
  th : Th                     -- the target thread
  waiting : Bool := false     -- subscribed to its `started` in `waitForStarted()`
  started : Bool := false     -- the result of that wait is posted to the home thread
  posted : Nat := 0           -- events posted to the ContextHelper, which lives in the target thread
  ran : List Bool := []       -- resumptions of the coroutine; true: on the target thread

/-- Models the environment (application, event loop, operating system) rather than code of /repo. -/
inductive Op
  | start      -- the target thread is (re)started and emits `started`
  | finish     -- it ends
  | home       -- the home thread's event loop runs the next posted event
  | target     -- the target thread's event loop runs the next posted event
deriving DecidableEq

/-- `ThreadContext::await_suspend` (`qcoro/core/qcorothread.cpp:70-77`): `waitForStarted()` (`:90-100`) returns at once if the thread runs
or has finished, and then posts the event, whatever it returned.  `late`: the thread starts between the check and the
subscription. -/
def start (th : Th) (late : Bool) : State :=
  match th with
  | .fresh => { th := if late then .running else .fresh, waiting := true }
  | t => { th := t, posted := 1 }

/-- (`qcoro/core/qcorothread.cpp:27-35`, `:70-77`.) -/
def step (s : State) : Op → State
  | .start => if s.th = .running then s else { s with th := .running, started := s.started || s.waiting, waiting := false }
  | .finish => if s.th = .running then { s with th := .finished } else s
  | .home => if s.started then { s with started := false, posted := s.posted + 1 } else s   -- the continuation of `:73-76`
  | .target =>   -- `ContextHelper::event` (`:27-35`)
    if s.th = .running ∧ s.posted ≠ 0 then { s with posted := s.posted - 1, ran := s.ran ++ [true] } else s

/-- Bookkeeping of the model, no counterpart in /repo. -/
def run (th : Th) (late : Bool) (ops : List Op) : State := ops.foldl step (start th late)

theorem run_snoc (th : Th) (late : Bool) (ops : List Op) (op : Op) : run th late (ops ++ [op]) = step (run th late ops) op := by simp [run]

/-- Proof invariant, no counterpart in /repo. -/
inductive Inv (s : State) : Prop
  | w (a : s.waiting = true) (b : s.started = false) (c : s.posted = 0) (d : s.ran = [])
  | st (a : s.waiting = false) (b : s.started = true) (c : s.posted = 0) (d : s.ran = [])
  | p (a : s.waiting = false) (b : s.started = false) (c : s.posted = 1) (d : s.ran = [])
  | r (a : s.waiting = false) (b : s.started = false) (c : s.posted = 0) (d : s.ran = [true])

theorem inv_step {s : State} (h : Inv s) (op : Op) : Inv (step s op) := by
  cases h with
  | w a b c d => cases op <;> simp only [step] <;> split <;> first | exact .w a b c d | exact .st rfl (by simp [a]) c d | simp_all
  | st a b c d => cases op <;> simp only [step] <;> split <;> first | exact .st a b c d | exact .st rfl (by simp [b]) c d | exact .p a rfl (by simp [c]) d | simp_all
  | p a b c d => cases op <;> simp only [step] <;> split <;> first | exact .p a b c d | exact .p rfl (by simp [a, b]) c d | exact .r a b (by simp [c]) (by simp [d]) | simp_all
  | r a b c d => cases op <;> simp only [step] <;> split <;> first | exact .r a b c d | exact .r rfl (by simp [a, b]) c d | simp_all

theorem inv_run (th : Th) (late : Bool) (ops : List Op) : Inv (run th late ops) := by
  induction ops using snocInd with
  | nil => cases th <;> simp [run, start] <;> first | exact .w rfl rfl rfl rfl | exact .p rfl rfl rfl rfl
  | snoc ops op ih => rw [run_snoc]; exact inv_step ih op

/-- The coroutine continues at most once, and only on the target thread. -/
theorem C43_once_on_target (th : Th) (late : Bool) (ops : List Op) : (run th late ops).ran = [] ∨ (run th late ops).ran = [true] := by
  cases inv_run th late ops with
  | w _ _ _ d => exact .inl d
  | st _ _ _ d => exact .inl d
  | p _ _ _ d => exact .inl d
  | r _ _ _ d => exact .inr d

/-- Only the target thread's event loop continues it, while that thread is running. -/
theorem C43_only_target_loop (th : Th) (late : Bool) (ops : List Op) (op : Op) (h : (run th late (ops ++ [op])).ran ≠ (run th late ops).ran) :
    op = .target ∧ (run th late ops).th = .running := by
  rw [run_snoc] at h
  cases op with
  | target =>
    simp only [step] at h
    split at h
    · rename_i hc; exact ⟨rfl, hc.1⟩
    · exact absurd rfl h
  | _ => simp only [step] at h; split at h <;> exact absurd rfl h

theorem ran_stays (th : Th) (late : Bool) (ops ops' : List Op) (h : (run th late ops).ran = [true]) : (run th late (ops ++ ops')).ran = [true] := by
  induction ops' using snocInd with
  | nil => simpa using h
  | snoc l op ih =>
    rw [← List.append_assoc]
    rcases C43_once_on_target th late (ops ++ l ++ [op]) with e | e
    · exfalso
      rw [run_snoc] at e
      cases op with
      | target => simp only [step] at e; split at e <;> simp [ih] at e
      | _ => simp only [step] at e; split at e <;> simp [ih] at e
    · exact e

/-- A running target: continued as soon as its event loop runs. -/
theorem C43_running (ops ops' : List Op) (h : ∀ op ∈ ops, op ≠ .finish ∧ op ≠ .target) : (run .running false (ops ++ .target :: ops')).ran = [true] := by
  have key : ∀ ops : List Op, (∀ op ∈ ops, op ≠ .finish ∧ op ≠ .target) →
      (run .running false ops).th = .running ∧ (run .running false ops).posted = 1 ∧ (run .running false ops).started = false ∧ (run .running false ops).ran = [] := by
    intro ops
    induction ops using snocInd with
    | nil => intro _; simp [run, start]
    | snoc l op ih =>
      intro h
      obtain ⟨a, b, c, d⟩ := ih (fun o ho => h o (by simp [ho]))
      rw [run_snoc]
      have := h op (by simp)
      cases op <;> simp_all [step]
  obtain ⟨a, b, c, d⟩ := key ops h
  have : (run .running false (ops ++ [.target])).ran = [true] := by rw [run_snoc]; simp [step, a, b, d]
  have := ran_stays .running false (ops ++ [.target]) ops' this
  simpa using this

/-- A target that is started later (and keeps running): continued as soon as the home loop and then the target loop have run. -/
theorem C43_started_later (a b c : List Op) (ops' : List Op) (ha : ∀ op ∈ a, op = .home ∨ op = .target) (hb : ∀ op ∈ b, op = .start ∨ op = .target)
    (hc : ∀ op ∈ c, op = .start ∨ op = .home) : (run .fresh false (a ++ .start :: b ++ .home :: c ++ .target :: ops')).ran = [true] := by
  have k1 : ∀ l : List Op, (∀ op ∈ l, op = .home ∨ op = .target) → run .fresh false l = start .fresh false := by
    intro l
    induction l using snocInd with
    | nil => intro _; rfl
    | snoc l op ih => intro h; rw [run_snoc, ih (fun o ho => h o (by simp [ho]))]; rcases h op (by simp) with rfl | rfl <;> simp [start, step]
  have k2 : ∀ l : List Op, (∀ op ∈ l, op = .start ∨ op = .target) → run .fresh false (a ++ .start :: l) = { th := .running, started := true } := by
    intro l
    induction l using snocInd with
    | nil => intro _; rw [run_snoc, k1 a ha]; simp [start, step]
    | snoc l op ih =>
      intro h; rw [← List.cons_append, ← List.append_assoc, run_snoc, ih (fun o ho => h o (by simp [ho]))]
      rcases h op (by simp) with rfl | rfl <;> simp [step]
  have k3 : ∀ l : List Op, (∀ op ∈ l, op = .start ∨ op = .home) → run .fresh false (a ++ .start :: b ++ .home :: l) = { th := .running, posted := 1 } := by
    intro l
    induction l using snocInd with
    | nil => intro _; rw [run_snoc, k2 b hb]; simp [step]
    | snoc l op ih =>
      intro h; rw [← List.cons_append, ← List.append_assoc, run_snoc, ih (fun o ho => h o (by simp [ho]))]
      rcases h op (by simp) with rfl | rfl <;> simp [step]
  have : (run .fresh false ((a ++ .start :: b ++ .home :: c) ++ [.target])).ran = [true] := by rw [run_snoc, k3 c hc]; simp [step]
  have := ran_stays .fresh false _ ops' this
  simpa using this

/-- Is the target running after `ops`, if it was (`r`) before? Specification vocabulary, no counterpart in /repo. -/
def runsAfter (r : Bool) : List Op → Bool
  | [] => r
  | .start :: l => runsAfter true l
  | .finish :: l => runsAfter false l
  | _ :: l => runsAfter r l

theorem runsAfter_snoc (r : Bool) (l : List Op) (op : Op) :
    runsAfter r (l ++ [op]) = (match op with | .start => true | .finish => false | _ => runsAfter r l) := by
  induction l generalizing r with
  | nil => cases op <;> rfl
  | cons o l ih => cases o <;> simp only [List.cons_append, runsAfter, ih]

theorem th_run (th : Th) (late : Bool) (ops : List Op) :
    (run th late ops).th = .running ↔ runsAfter ((start th late).th = .running) ops = true := by
  induction ops using snocInd with
  | nil => simp [run, runsAfter]
  | snoc l op ih =>
    rw [run_snoc, runsAfter_snoc]
    cases op with
    | start => simp only [step]; split <;> simp_all
    | finish => simp only [step]; split <;> simp_all
    | home => simp only [step]; split <;> simp_all
    | target => simp only [step]; split <;> simp_all

/-- The subscribed coroutine is told that the target was started. Specification vocabulary, no counterpart in /repo. -/
def Told (r : Bool) (ops : List Op) : Prop := ∃ a b, ops = a ++ .start :: b ∧ runsAfter r a = false
/-- … and has posted the event. Specification vocabulary, no counterpart in /repo. -/
def Posted (r : Bool) (ops : List Op) : Prop := ∃ a b c, ops = a ++ .start :: b ++ .home :: c ∧ runsAfter r a = false

theorem told_snoc (r : Bool) (l : List Op) (op : Op) : Told r (l ++ [op]) ↔ Told r l ∨ (op = .start ∧ runsAfter r l = false) := by
  constructor
  · rintro ⟨a, b, e, h⟩
    rcases List.eq_nil_or_concat b with hb | ⟨b', y, hb⟩
    · subst hb
      obtain ⟨h3, h4⟩ := List.append_inj' (s₁ := l) (t₁ := [op]) (s₂ := a) (t₂ := [.start]) (by simpa using e) rfl
      simp at h4; subst h3; exact .inr ⟨h4, h⟩
    · subst hb
      obtain ⟨h3, _⟩ := List.append_inj' (s₁ := l) (t₁ := [op]) (s₂ := a ++ .start :: b') (t₂ := [y]) (by simpa using e) rfl
      exact .inl ⟨a, b', h3, h⟩
  · rintro (⟨a, b, e, h⟩ | ⟨rfl, h⟩)
    · exact ⟨a, b ++ [op], by simp [e], h⟩
    · exact ⟨l, [], rfl, h⟩

theorem posted_snoc (r : Bool) (l : List Op) (op : Op) : Posted r (l ++ [op]) ↔ Posted r l ∨ (op = .home ∧ Told r l) := by
  constructor
  · rintro ⟨a, b, c, e, h⟩
    rcases List.eq_nil_or_concat c with hb | ⟨c', y, hb⟩
    · subst hb
      obtain ⟨h3, h4⟩ := List.append_inj' (s₁ := l) (t₁ := [op]) (s₂ := a ++ .start :: b) (t₂ := [.home]) (by simpa using e) rfl
      simp at h4; exact .inr ⟨h4, a, b, h3, h⟩
    · subst hb
      obtain ⟨h3, _⟩ := List.append_inj' (s₁ := l) (t₁ := [op]) (s₂ := a ++ .start :: b ++ .home :: c') (t₂ := [y]) (by simpa using e) rfl
      exact .inl ⟨a, b, c', h3, h⟩
  · rintro (⟨a, b, c, e, h⟩ | ⟨rfl, a, b, e, h⟩)
    · exact ⟨a, b, c ++ [op], by simp [e], h⟩
    · exact ⟨a, b, [], by simp [e], h⟩

/-- The state of a coroutine that had to wait for the start. -/
theorem fresh_run (late : Bool) (ops : List Op) : let s := run .fresh late ops
    (s.waiting = true ↔ ¬ Told late ops) ∧ (Posted late ops ↔ s.waiting = false ∧ s.started = false) := by
  have hr : ∀ l, (run .fresh late l).th = .running ↔ runsAfter late l = true := by
    intro l; have := th_run .fresh late l; cases late <;> simpa [start] using this
  induction ops using snocInd with
  | nil =>
    have h1 : ¬ Told late [] := by rintro ⟨a, b, e, _⟩; simp at e
    have h2 : ¬ Posted late [] := by rintro ⟨a, b, c, e, _⟩; simp at e
    simp [run, start, h1, h2]
  | snoc l op ih =>
    have hi := inv_run .fresh late l
    have hr := hr l
    dsimp only at ih ⊢
    rw [run_snoc, told_snoc, posted_snoc]
    generalize run .fresh late l = s at *
    obtain ⟨i1, i2⟩ := ih
    cases op with
    | finish => simp only [step]; split <;> simp_all
    | target => simp only [step]; split <;> simp_all
    | start =>
      simp only [step]
      by_cases h : s.th = .running
      · rw [if_pos h]; simp_all
      · rw [if_neg h]
        have : runsAfter late l = false := by cases hx : runsAfter late l; rfl; exact absurd (hr.2 hx) h
        cases hi with
        | w a b c d => simp_all
        | _ a b c d => simp_all
    | home =>
      simp only [step]
      cases hi with
      | w a b c d => simp_all
      | st a b c d => simp_all
      | p a b c d => simp_all
      | r a b c d => simp_all

theorem posted_or_ran (s : State) (hi : Inv s) : (s.posted ≠ 0 ∨ s.ran = [true]) ↔ s.waiting = false ∧ s.started = false := by
  cases hi with
  | _ a b c d => simp [a, b, c, d]

theorem calm_step (s : State) (op : Op) (h : s.waiting = false ∧ s.started = false) : (step s op).waiting = false ∧ (step s op).started = false := by
  obtain ⟨h1, h2⟩ := h
  cases op <;> simp only [step] <;> split <;> simp_all

/-- **Exactly when the coroutine continues** (once, on the target thread): a target that was running or finished is continued by the
first run of its event loop while the target runs; for one that had not been started, the target must have been started after the
subscription (`late`: it was started just before it, and only a restart counts), then the home thread's event loop must have run, and
then the target's event loop while the target runs. -/
theorem C43_continues_iff (th : Th) (late : Bool) (ops : List Op) :
    (run th late ops).ran = [true] ↔
      (∃ a b c d, ops = a ++ .start :: b ++ .home :: c ++ .target :: d ∧ th = .fresh ∧ runsAfter late a = false ∧
        runsAfter late (a ++ .start :: b ++ .home :: c) = true) ∨
      (∃ a b, ops = a ++ .target :: b ∧ th ≠ .fresh ∧ runsAfter (th = .running) a = true) := by
  have prefixed : ∀ l op, (run th late (l ++ [op])).ran = [true] ↔ (run th late l).ran = [true] ∨ (op = .target ∧ (run th late l).th = .running ∧ (run th late l).posted ≠ 0) := by
    intro l op
    have hi := inv_run th late l
    rw [run_snoc]
    generalize run th late l = s at *
    cases hi with
    | _ a b c d => cases op <;> simp only [step] <;> split <;> simp_all
  have key : ∀ l : List Op, (run th late l).ran = [true] ↔ ∃ a b, l = a ++ .target :: b ∧ (run th late a).th = .running ∧ ((run th late a).posted ≠ 0 ∨ (run th late a).ran = [true]) := by
    intro l
    induction l using snocInd with
    | nil => simp only [List.nil_eq, List.append_eq_nil_iff, reduceCtorEq, and_false, false_and, exists_false, iff_false]; cases th <;> simp [run, start]
    | snoc l op ih =>
      rw [prefixed, ih]
      constructor
      · rintro (⟨a, b, e, h⟩ | ⟨rfl, h1, h2⟩)
        · exact ⟨a, b ++ [op], by simp [e], h⟩
        · exact ⟨l, [], rfl, h1, .inl h2⟩
      · rintro ⟨a, b, e, h1, h2⟩
        rcases List.eq_nil_or_concat b with hb | ⟨b', y, hb⟩
        · subst hb
          obtain ⟨h3, h4⟩ := List.append_inj' (s₁ := l) (t₁ := [op]) (s₂ := a) (t₂ := [.target]) (by simpa using e) rfl
          simp at h4; subst h3
          rcases h2 with h2 | h2
          · exact .inr ⟨h4, h1, h2⟩
          · exact .inl (ih.1 h2)
        · subst hb
          obtain ⟨h3, _⟩ := List.append_inj' (s₁ := l) (t₁ := [op]) (s₂ := a ++ .target :: b') (t₂ := [y]) (by simpa using e) rfl
          exact .inl ⟨a, b', h3, h1, h2⟩
  rw [key]
  by_cases hf : th = .fresh
  · subst hf
    have hr : ∀ l, (run .fresh late l).th = .running ↔ runsAfter late l = true := by
      intro l; have := th_run .fresh late l; cases late <;> simpa [start] using this
    have hp : ∀ l, ((run .fresh late l).posted ≠ 0 ∨ (run .fresh late l).ran = [true]) ↔ Posted late l := by
      intro l
      exact (posted_or_ran _ (inv_run .fresh late l)).trans (fresh_run late l).2.symm
    constructor
    · rintro ⟨a, b, e, h1, h2⟩
      obtain ⟨p, q, r, e2, h3⟩ := (hp a).1 h2
      exact .inl ⟨p, q, r, b, by rw [e, e2], rfl, h3, by rw [← e2]; exact (hr a).1 h1⟩
    · rintro (⟨a, b, c, d, e, _, h1, h2⟩ | ⟨_, _, _, h, _⟩)
      · exact ⟨a ++ .start :: b ++ .home :: c, d, e, (hr _).2 h2, (hp _).2 ⟨a, b, c, rfl, h1⟩⟩
      · exact absurd rfl h
  · have hs : (start th late).th = th ∧ (start th late).posted = 1 := by cases th <;> first | exact absurd rfl hf | exact ⟨rfl, rfl⟩
    have hp : ∀ l, (run th late l).posted ≠ 0 ∨ (run th late l).ran = [true] := by
      intro l
      have : (run th late l).waiting = false ∧ (run th late l).started = false := by
        induction l using snocInd with
        | nil => cases th <;> first | exact absurd rfl hf | exact ⟨rfl, rfl⟩
        | snoc l op ih =>
          rw [run_snoc]; exact calm_step _ op ih
      exact (posted_or_ran _ (inv_run th late l)).2 this
    have hr := fun l => th_run th late l
    constructor
    · rintro ⟨a, b, e, h1, _⟩
      refine .inr ⟨a, b, e, hf, ?_⟩
      have := (hr a).1 h1; rw [hs.1] at this; exact this
    · rintro (⟨_, _, _, _, _, h, _⟩ | ⟨a, b, e, _, h1⟩)
      · exact absurd h hf
      · exact ⟨a, b, e, (hr a).2 (by rw [hs.1]; exact h1), hp a⟩

/-- Not before the target has been started. -/
theorem C43_not_before_start (ops : List Op) (h : .start ∉ ops) : (run .fresh false ops).ran = [] := by
  have : ∀ l : List Op, .start ∉ l → run .fresh false l = start .fresh false := by
    intro l
    induction l using snocInd with
    | nil => intro _; rfl
    | snoc l op ih =>
      intro h; simp at h; rw [run_snoc, ih h.1]
      cases op <;> simp_all [start, step]
  rw [this ops h]; rfl

/-- Found: a target that has finished and is not restarted never continues the coroutine. -/
theorem C43_finished_hangs (late : Bool) (ops : List Op) (h : .start ∉ ops) : (run .finished late ops).ran = [] := by
  have : ∀ l : List Op, .start ∉ l → run .finished late l = start .finished late := by
    intro l
    induction l using snocInd with
    | nil => intro _; rfl
    | snoc l op ih =>
      intro h; simp at h; rw [run_snoc, ih h.1]
      cases op <;> simp_all [start, step]
  rw [this ops h]; rfl

/-- Found: a target that starts between the check and the subscription: lost, unless it ends and is started again. -/
theorem C43_late_start_lost (ops : List Op) (h : .finish ∉ ops) : (run .fresh true ops).ran = [] := by
  have : ∀ l : List Op, .finish ∉ l → run .fresh true l = start .fresh true := by
    intro l
    induction l using snocInd with
    | nil => intro _; rfl
    | snoc l op ih =>
      intro h; simp at h; rw [run_snoc, ih h.1]
      cases op <;> simp_all [start, step]
  rw [this ops h]; rfl

/-- Found: a target that ends before its loop gets to the event. -/
theorem C43_ended_before_event : (run .running false [.finish, .home, .target, .target]).ran = [] := by decide

example : (run .fresh false [.home, .target, .start, .target, .home, .target, .target]).ran = [true] := by decide

end QCoro.Move
