import Verif.AsyncGen.Owner
/-! # C84: how deep the native stack gets (asynchronous generators) -/
set_option linter.unusedSimpArgs false

namespace QCoro.AGen
open QCoro
variable {σ V E : Type}

/-- How an event changes the number of nested activations: starting or resuming a coroutine nests, suspending and ending returns; co_yield, `begin()` and `++` pass
control on. Specification, no counterpart in /repo. -/
def nests : Ev V E → Int
  | .spawned _ => 1
  | .resumed _ => 1
  | .suspended _ => -1
  | .finished _ _ => -1
  | _ => 0

/-- The sum over the history. Specification, no counterpart in /repo. -/
def depth (l : List (Ev V E)) : Int := (l.map nests).sum

theorem depth_snoc (l : List (Ev V E)) (e : Ev V E) : depth (l ++ [e]) = depth l + nests e := by
  simp [depth]

/-- The number of activations is the sum. -/
def D (s : State σ V E) : Prop := (s.stack.length : Int) = depth s.log

theorem D_emit {s : State σ V E} {e : Ev V E} (h : D s) (he : nests e = 0) : D (s.emit e) := by
  unfold D State.emit at *; dsimp only; rw [depth_snoc, he, h]; omega
theorem D_fail {s : State σ V E} {u : Ub} (h : D s) : D (s.fail u) := h
theorem D_reply {s : State σ V E} {c : Nat} {r : Resp V E} (h : D s) : D (s.reply c r) := h
theorem D_congr {s s' : State σ V E} (h : D s) (h1 : s'.stack.length = s.stack.length) (h2 : s'.log = s.log) : D s' := by
  unfold D at *; rw [h1, h2, h]

theorem D_advance {s : State σ V E} {k g : Nat} {c : Call} {bad : Ub} (h : D s) (hs : s.stack ≠ []) : D (s.advance k g c bad) := by
  unfold State.advance
  split
  · exact h
  · split
    all_goals first
      | exact h
      | (refine D_emit (D_congr h ?_ rfl) rfl
         dsimp only
         cases hh : s.stack with
         | nil => exact absurd hh hs
         | cons a l => simp)

theorem D_awaitResume {s : State σ V E} {g k : Nat} {c : Call} (h : D s) : D (s.awaitResume g k c) := by
  unfold State.awaitResume
  cases c with
  | inc i =>
    dsimp only
    split
    · split
      · exact D_reply (D_emit (D_congr h rfl rfl) rfl)
      · exact D_reply (D_emit (D_congr h rfl rfl) rfl)
    · exact D_reply (D_emit h rfl)
  | begin =>
    dsimp only
    split
    · split
      · exact D_reply (D_emit (D_congr h rfl rfl) rfl)
      · exact D_reply (D_emit (D_congr h rfl rfl) rfl)
    · exact D_reply (D_emit (D_congr h rfl rfl) rfl)

theorem D_transfer {s : State σ V E} {g : Nat} (h : D s) (hs : s.stack ≠ []) : D (s.transfer g) := by
  unfold State.transfer
  split
  · exact h
  · split
    · exact h
    · split
      · refine D_awaitResume (D_congr h ?_ rfl)
        dsimp only
        cases hh : s.stack with
        | nil => exact absurd hh hs
        | cons a l => simp
      · exact h

theorem D_tail {s s' : State σ V E} {e : Ev V E} (h : D s) (hs : s.stack ≠ []) (h1 : s'.stack = s.stack.tail) (h2 : s'.log = s.log) (he : nests e = -1) :
    D (s'.emit e) := by
  unfold D State.emit at *
  dsimp only
  rw [depth_snoc, he, h2, ← h, h1]
  cases hh : s.stack with
  | nil => exact absurd hh hs
  | cons a l => simp; omega

theorem D_act {s : State σ V E} {k : Nat} (a : Act σ V E) (h : D s) (hs : s.stack ≠ []) : D (s.act k a) := by
  cases a <;> simp only [State.act] <;> repeat' split
  all_goals first
    | exact h
    | exact D_advance h hs
    | exact D_tail h hs rfl rfl rfl
    | exact D_transfer (D_emit (D_congr h rfl rfl) rfl) hs
    | exact D_reply (D_emit (e := _) (D_congr h rfl rfl) rfl)

theorem D_exec (P : Prog σ V E) (ops : List (Op σ)) : D (exec P ops) := by
  induction ops using snocInd with
  | nil => rfl
  | snoc ops op ih =>
    rw [exec_snoc]
    generalize exec P ops = s at *
    unfold step
    split
    · exact ih
    split
    · unfold D State.emit at *; dsimp only; rw [depth_snoc, ← ih]; simp [nests]
    · split
      · split
        · exact ih
        · unfold D State.emit at *; dsimp only; rw [depth_snoc, ← ih]; simp [nests]
      · exact ih
    · rename_i k r hs
      split
      · exact D_act _ (D_emit (D_congr ih rfl rfl) rfl) (by simp [State.emit, hs])
      · exact ih
    · exact ih

/-- **Iterating over an asynchronous generator needs no stack**: the number of coroutines nested in execution depends only on how many were started or resumed from
outside and have not yet suspended or ended – never on how many values were yielded and fetched, nor on how many generators are chained. -/
theorem C84_async_depth (P : Prog σ V E) (ops : List (Op σ)) : ((exec P ops).stack.length : Int) = depth (exec P ops).log := D_exec P ops

theorem awaitResume_stack {s : State σ V E} {g k : Nat} {c : Call} : (s.awaitResume g k c).stack = s.stack := by
  unfold State.awaitResume
  cases c <;> dsimp only <;> repeat' split
  all_goals rfl

theorem transfer_len {s : State σ V E} {g : Nat} (hs : s.stack ≠ []) : (s.transfer g).stack.length ≤ s.stack.length := by
  have := List.length_pos_iff.2 hs
  unfold State.transfer
  repeat' split
  all_goals first
    | exact Nat.le_refl _
    | (rw [awaitResume_stack]; simp; omega)

theorem advance_len {s : State σ V E} {k g : Nat} {c : Call} {bad : Ub} (hs : s.stack ≠ []) : (s.advance k g c bad).stack.length ≤ s.stack.length := by
  have := List.length_pos_iff.2 hs
  unfold State.advance
  repeat' split
  all_goals first
    | exact Nat.le_refl _
    | (simp [State.emit]; omega)

theorem act_len {s : State σ V E} {k : Nat} (a : Act σ V E) (hs : s.stack ≠ []) : (s.act k a).stack.length ≤ s.stack.length := by
  cases a <;> simp only [State.act] <;> repeat' split
  all_goals first
    | exact Nat.le_refl _
    | exact transfer_len hs
    | exact advance_len hs
    | (simp [State.emit])

/-- An action of a coroutine never nests deeper: `co_yield`, `co_return`, an exception, `co_await begin()` and `co_await ++it` hand the activation on or give it back. -/
theorem C84_async_action (P : Prog σ V E) (s : State σ V E) : (step P s .tick).stack.length ≤ s.stack.length := by
  unfold step
  split
  · exact Nat.le_refl _
  · split
    · contradiction
    · contradiction
    · rename_i k r _ hs
      split
      · exact Nat.le_trans (act_len _ (by simp [State.emit, hs])) (Nat.le_refl _)
      · exact Nat.le_refl _
    · exact Nat.le_refl _

/-- The environment enters a coroutine: calls one, or completes what one awaits. Specification, no counterpart in /repo. -/
def Op.enters : Op σ → Bool
  | .tick => false
  | _ => true

/-- So as long as nobody calls or resumes coroutines from within coroutines – all is done by the event loop –, there is never more than one activation. -/
theorem C84_async_flat (P : Prog σ V E) (ops : List (Op σ))
    (h : ∀ i, i < ops.length → ops[i]?.any Op.enters = true → (exec P (ops.take i)).stack = []) :
    (exec P ops).stack.length ≤ 1 := by
  induction ops using snocInd with
  | nil => simp [exec]
  | snoc ops op ih =>
    have ih := ih (fun i hi he => by
      have := h i (by simp; omega) (by rw [List.getElem?_append_left hi]; exact he)
      rwa [List.take_append_of_le_length (by omega)] at this)
    have h0 : op.enters = true → (exec P ops).stack = [] := fun he => by
      have := h ops.length (by simp) (by simp [he])
      simpa using this
    rw [exec_snoc]
    cases op with
    | spawn x =>
      have := h0 rfl
      generalize exec P ops = s at *
      unfold step
      split
      · exact ih
      · simp [State.emit, this]
    | ext c =>
      have := h0 rfl
      generalize exec P ops = s at *
      unfold step
      split
      · exact ih
      · dsimp only
        split
        · split
          · exact ih
          · simp [State.emit, this]
        · exact ih
    | tick => exact Nat.le_trans (C84_async_action P _) ih

theorem born_of (c : Nat) (log : List (Ev V E)) (h : Legal Spec.next Spec.ok {} log) (hc : (Spec.after log).ph c ≠ .unborn) :
    .spawned c ∈ log ∨ ∃ o, .created c o ∈ log := by
  induction log using snocInd with
  | nil => simp [Spec.after] at hc
  | snoc l e ih =>
    have hok : Spec.ok (Spec.after l) e := h l e [] rfl
    have ih := ih h.prefix
    by_cases hu : (Spec.after l).ph c = .unborn
    · rw [Spec.after_snoc] at hc
      generalize Spec.after l = S at *
      cases e with
      | spawned d =>
        by_cases hd : c = d
        · subst hd; simp
        · simp [Spec.next, upd_other _ _ hd, hu] at hc
      | created d o =>
        by_cases hd : c = d
        · subst hd; exact .inr ⟨o, by simp⟩
        · simp [Spec.next, upd_other _ _ hd, hu] at hc
      | yielded g v => obtain ⟨_, k, hk⟩ := hok; simp only [Spec.next, hk, upd_apply] at hc; grind
      | returned g => obtain ⟨_, k, hk⟩ := hok; simp only [Spec.next, hk, upd_apply] at hc; grind
      | raised g e => obtain ⟨_, k, hk⟩ := hok; simp only [Spec.next, hk, upd_apply] at hc; grind
      | got g k i => obtain ⟨⟨v, hk⟩, _, _⟩ := hok; simp only [Spec.next, hk, upd_apply] at hc; grind
      | dropped o g => cases g <;> simp only [Spec.next, Spec.ok, upd_apply] at hc hok <;> grind
      | _ =>
        simp only [Spec.next, Spec.ok] at hc hok
        repeat' split at hc
        all_goals (try simp only [upd_apply] at hc); grind
    · rcases ih hu with h | ⟨o, h⟩
      · exact .inl (by simp [h])
      · exact .inr ⟨o, by simp [h]⟩

/-- **No coroutine is entered while it is in execution**, and all that are in execution exist. -/
theorem C84_async_no_reentry (P : Prog σ V E) (ops : List (Op σ)) (hu : (exec P ops).ub = none) :
    (exec P ops).stack.Nodup ∧ ∀ c, c ∈ (exec P ops).stack →
      (.spawned c ∈ (exec P ops).log ∨ ∃ o, .created c o ∈ (exec P ops).log) ∧ ∀ o, .dropped o (some c) ∉ (exec P ops).log := by
  have hl := (good_exec P ops).legal
  have hi := (good_exec P ops).inv hu
  refine ⟨hi.nd, fun c hc => ?_⟩
  have hr := (hi.cur c).2 hc
  have hf := (hi.wf c).run hr
  have ha := (hi.wf c).act (by simp [Status.active, hr])
  have hp : absPh ((exec P ops).fr c) ≠ .unborn ∧ absPh ((exec P ops).fr c) ≠ .gone := by
    cases hg : ((exec P ops).fr c).isGen with
    | false => simp [absPh, hr, hf, hg]
    | true =>
      have := ha.2 hg
      cases hk : ((exec P ops).fr c).consumer with
      | none => simp [hk] at this
      | some k => simp [absPh, hr, hf, hg, hk]
  rw [← hi.ph c] at hp
  exact ⟨born_of c _ hl hp.1, fun o ho => hp.2 ((gone_iff c _ hl).2 ⟨o, ho⟩)⟩

/-! ### Concrete cases -/

/-- The hypotheses hold in a complete run of a `QCORO_FOREACH` loop driven by the event loop. -/
example : (exec demo (.spawn (.p 200) :: demo_ops)).ub = none ∧ (∀ i, i < (Op.spawn (.p 200) :: demo_ops).length →
    (Op.spawn (.p 200) :: demo_ops)[i]?.any Op.enters = true → (exec demo ((Op.spawn (.p 200) :: demo_ops).take i)).stack = []) := by
  decide

end QCoro.AGen
