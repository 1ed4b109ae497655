import Verif.Signal.Props
/-
One wait `co_await qCoro(obj, signal, timeout)` begun on thread 0 at time 0, as used inside the `waitFor…` functions:
consequences of C27–C29 in a form convenient for them.
-/
set_option linter.unusedSimpArgs false
namespace QCoro.Sig
variable {α : Type}

/-- The state of a single wait with timeout `t` (`-1`: none) followed by further events. -/
def one (t : Int) (ops : List (Op α)) : State α := exec (.await 0 (.timed t) :: ops)

theorem one_snoc (t : Int) (ops : List (Op α)) (op : Op α) : one t (ops ++ [op]) = step (one t ops) op := by
  show exec ((.await 0 (.timed t) :: ops) ++ [op]) = _
  rw [exec_snoc]; rfl

/-- The answer the coroutine got, if it was continued: the result and when. -/
def answerOf : Ev α → Option (Option α × Nat)
  | .resumed 0 _ r now _ => some (r, now)
  | _ => none
def answer (l : List (Ev α)) : Option (Option α × Nat) := l.findSome? answerOf

theorem answer_some {l : List (Ev α)} {r : Option α} {now : Nat} (h : answer l = some (r, now)) :
    ∃ pre post th ie, l = pre ++ .resumed 0 th r now ie :: post := by
  unfold answer at h
  rw [List.findSome?_eq_some_iff] at h
  obtain ⟨pre, e, post, rfl, he, _⟩ := h
  cases e with
  | resumed w th r' n ie =>
    cases w with
    | zero => simp [answerOf] at he; obtain ⟨rfl, rfl⟩ := he; exact ⟨pre, post, th, ie, rfl⟩
    | succ w => simp [answerOf] at he
  | _ => simp [answerOf] at he

theorem resumes_zero {l : List (Ev α)} : resumes 0 l = 0 ↔ answer l = none := by
  unfold resumes answer
  rw [List.countP_eq_zero, List.findSome?_eq_none_iff]
  constructor
  · intro h e he
    have := h e he
    cases e with
    | resumed w th r n ie => cases w with
      | zero => simp [isResume] at this
      | succ w => rfl
    | _ => rfl
  · intro h e he
    have := h e he
    cases e with
    | resumed w th r n ie => cases w with
      | zero => simp [answerOf] at this
      | succ w => simp [isResume]
    | _ => simp [isResume]

theorem one_log (t : Int) (ops : List (Op α)) : ∃ l, (one t ops).log = .awaited 0 0 (.timed t) 0 :: l := by
  induction ops using snocInd with
  | nil => exact ⟨[], by simp [one, exec, step, State.emit]⟩
  | snoc l op ih =>
    obtain ⟨m, hm⟩ := ih
    rw [one_snoc]
    obtain ⟨x, hx⟩ := log_grows (one t l) op
    exact ⟨m ++ x, by rw [hx, hm]; simp⟩

/-- Kinds of waits that were begun. -/
theorem awaits_timed (t : Int) (ops : List (Op α)) (hops : ∀ th k, .await th k ∉ ops) :
    ∀ w th t0, Ev.awaited w th .plain t0 ∉ (one t ops).log := by
  induction ops using snocInd with
  | nil => intro w th t0; simp [one, exec, step, State.emit]
  | snoc l op ih =>
    have ih := ih (fun th k h => hops th k (by simp [h]))
    intro w th t0
    rw [one_snoc]
    have hop : ∀ th k, op ≠ .await th k := fun th k e => hops th k (by simp [e])
    have hinv : Inv (one t l) := inv_exec _
    generalize one t l = s at *
    unfold step
    split
    · exact ih w th t0
    have hres : ∀ (s : State α) w' th' ie, (∀ w th t0, Ev.awaited w th .plain t0 ∉ s.log) → Ev.awaited w th .plain t0 ∉ (s.resume w' th' ie).log := by
      intro s w' th' ie h
      unfold State.resume; dsimp only
      split <;> simp [State.emit, h w th t0]
    cases op with
    | await th k => exact absurd rfl (hop th k)
    | emit th' a =>
      dsimp only; split
      · rw [emit_fold _ _ _ List.nodup_range]; simp [State.emit, ih w th t0]
      · exact ih w th t0
    | process th' =>
      dsimp only; split
      · exact ih w th t0
      · unfold State.slot; dsimp only; split
        · exact hres _ _ _ _ ih
        · exact ih w th t0
    | time d => exact ih w th t0
    | fire w' =>
      dsimp only; split
      · exact ih w th t0
      · split
        · split
          · exact hres _ _ _ _ ih
          · exact ih w th t0
        · exact ih w th t0
    | destroy => dsimp only; split
                 · simp [State.emit, ih w th t0]
                 · exact ih w th t0

theorem one_ub (t : Int) (ops : List (Op α)) (hops : ∀ th k, .await th k ∉ ops) : (one t ops).ub = none := by
  cases h : (one t ops).ub with
  | none => rfl
  | some u =>
    cases u with
    | derefNullopt w =>
      obtain ⟨pre, th, t0, mid, post, now, h1, _⟩ := C29_only_ub _ w h
      exact absurd (by rw [show (one t ops).log = _ from h1]; simp) (awaits_timed t ops hops w th t0)

/-- At most one answer. -/
theorem one_once (t : Int) (ops : List (Op α)) : resumes 0 (one t ops).log ≤ 1 := C27_once _ 0

/-- An answer with a value is the first emission since the wait began. -/
theorem one_value {t : Int} {ops : List (Op α)} {v : α} {now : Nat} (h : answer (one t ops).log = some (some v, now)) :
    (emissions (one t ops).log).head? = some v := by
  obtain ⟨l, hl⟩ := one_log t ops
  obtain ⟨pre, post, th, ie, he⟩ := answer_some h
  have h1 : ∃ mid, l = mid ++ .resumed 0 th (some v) now ie :: post := by
    rw [hl] at he
    cases pre with
    | nil => simp at he
    | cons e pre => simp at he; exact ⟨pre, he.2⟩
  obtain ⟨mid, rfl⟩ := h1
  have := C27_first_emission (α := α) (.await 0 (.timed t) :: ops) [] mid post 0 0 th _ 0 now v ie hl
  rw [hl]
  simp only [emissions_awaited, emissions_append]
  cases hm : emissions mid with
  | nil => rw [hm] at this; cases this
  | cons a m => rw [hm] at this; simpa using this

/-- Is the object destroyed? -/
def isDestroyed : Ev α → Bool | .destroyed => true | _ => false

theorem after_alive (l : List (Ev α)) : (Spec.after l).alive = !(l.any isDestroyed) := by
  induction l using snocInd with
  | nil => rfl
  | snoc l e ih => rw [Spec.after_snoc]; cases e <;> simp [Spec.next, ih, isDestroyed]

/-- An answer without a value: the timeout is non-negative and has elapsed, the object still existed. -/
theorem one_nothing {t : Int} {ops : List (Op α)} {now : Nat} (h : answer (one t ops).log = some (none, now)) :
    0 ≤ t ∧ t ≤ now := by
  obtain ⟨l, hl⟩ := one_log t ops
  obtain ⟨pre, post, th, ie, he⟩ := answer_some h
  have h1 : ∃ mid, l = mid ++ .resumed 0 th none now ie :: post := by
    rw [hl] at he
    cases pre with
    | nil => simp at he
    | cons e pre => simp at he; exact ⟨pre, he.2⟩
  obtain ⟨mid, rfl⟩ := h1
  have := C28_nullopt_only_on_timeout (α := α) (.await 0 (.timed t) :: ops) [] mid post 0 0 th _ 0 now ie hl rfl
  simpa [Kind.ms] using this

/-- Once there was an emission, delivering what is posted answers the wait. -/
theorem one_delivered (t : Int) (ops : List (Op α)) (hops : ∀ th k, .await th k ∉ ops) (hem : emissions (one t ops).log ≠ [])
    (n : Nat) (hn : ((one t ops).posted 0).length ≤ n) :
    (answer (one t (ops ++ List.replicate n (.process 0))).log).isSome = true := by
  obtain ⟨l, hl⟩ := one_log t ops
  have h := C27_delivered (α := α) (.await 0 (.timed t) :: ops) (one_ub t ops hops) [] l 0 0 (.timed t) 0 hl
    (by rw [hl] at hem; simpa using hem) n hn
  cases ha : answer (one t (ops ++ List.replicate n (.process 0))).log with
  | some x => rfl
  | none =>
    have := resumes_zero.mpr ha
    rw [show (one t (ops ++ List.replicate n (.process 0))).log = (exec (.await 0 (.timed t) :: ops ++ List.replicate n (.process 0))).log from rfl] at this
    omega

/-- When the timeout has elapsed with the wait unanswered and the object alive, the timer answers with nothing. -/
theorem one_timeout (t : Int) (ops : List (Op α)) (hops : ∀ th k, .await th k ∉ ops) (ht : 0 ≤ t) (hnow : t ≤ (one t ops).now)
    (hal : (one t ops).alive = true) (hna : answer (one t ops).log = none) :
    answer (one t (ops ++ [.fire 0])).log = some (none, (one t ops).now) := by
  obtain ⟨l, hl⟩ := one_log t ops
  have h := C28_timeout_ends_wait (α := α) (.await 0 (.timed t) :: ops) (one_ub t ops hops) [] l 0 0 t 0 hl
    (resumes_zero.mpr (by rw [hl] at hna; exact hna)) ht hal (by show ((0:Nat):Int) + t ≤ ((one t ops).now : Int); omega)
  have h' : (one t (ops ++ [.fire 0])).log = (one t ops).log ++ [.resumed 0 0 none (one t ops).now false] := h
  rw [h', answer, List.findSome?_append]
  rw [show (one t ops).log.findSome? answerOf = none from hna]
  rfl

/-- The wait is answered iff its coroutine is no longer suspended. -/
theorem one_waiting (t : Int) (ops : List (Op α)) : ((one t ops).ws 0).waiting = (answer (one t ops).log).isNone := by
  have hinv : Inv (one t ops) := inv_exec _
  obtain ⟨l, hl⟩ := one_log t ops
  generalize one t ops = s at *
  have hrel := hinv.rel 0
  have hleg := hinv.legal
  rw [hl] at hleg
  have ha : answer s.log = answer l := by rw [hl]; rfl
  rw [ha]
  rcases track 0 0 (.timed t) 0 [] l hleg with ⟨_, e, hph⟩ | ⟨e, hph⟩
  · rw [hl] at hrel; simp only [List.nil_append] at hph; rw [hph] at hrel
    rw [hrel.2.1, resumes_zero.mp e]; rfl
  · rw [hl] at hrel; simp only [List.nil_append] at hph; rw [hph] at hrel
    rw [hrel.1]
    cases h : answer l with
    | none => rw [resumes_zero.mpr h] at e; cases e
    | some x => rfl

theorem answer_append (a b : List (Ev α)) : answer (a ++ b) = (answer a).or (answer b) := by
  simp [answer, List.findSome?_append]

/-- One step of a single wait: what changes. -/
theorem step_emit (s : State α) (hu : s.ub = none) (r : α) (hal : s.alive = true) :
    emissions (step s (.emit 0 r)).log = emissions s.log ++ [r] ∧ answer (step s (.emit 0 r)).log = answer s.log ∧
    (step s (.emit 0 r)).now = s.now ∧ (step s (.emit 0 r)).alive = true := by
  unfold step
  simp only [hu, hal, Option.isSome_none, Bool.false_eq_true, if_false, if_true]
  rw [emit_fold _ _ _ List.nodup_range]
  simp [State.emit, hal, emissions_append, answer_append, answer, answerOf]

theorem step_time (s : State α) (hu : s.ub = none) (d : Nat) :
    (step s (.time d)).log = s.log ∧ (step s (.time d)).now = s.now + d ∧ (step s (.time d)).alive = s.alive := by
  unfold step; simp [hu]

theorem step_destroy (s : State α) (hu : s.ub = none) :
    emissions (step s .destroy).log = emissions s.log ∧ answer (step s .destroy).log = answer s.log ∧
    (step s .destroy).now = s.now ∧ (step s .destroy).alive = false := by
  unfold step
  simp only [hu, Option.isSome_none, Bool.false_eq_true, if_false]
  split
  · simp [State.emit, emissions_append, answer_append, answer, answerOf]
  · rename_i h; simp_all

theorem resume_eff (s : State α) (w th : Nat) (ie : Bool) :
    emissions (s.resume w th ie).log = emissions s.log ∧ (s.resume w th ie).now = s.now ∧ (s.resume w th ie).alive = s.alive := by
  unfold State.resume; dsimp only; split <;> simp [State.emit, emissions_append]

theorem step_process (s : State α) (th : Nat) :
    emissions (step s (.process th)).log = emissions s.log ∧ (step s (.process th)).now = s.now ∧ (step s (.process th)).alive = s.alive := by
  unfold step; split
  · simp
  · dsimp only; split
    · simp
    · unfold State.slot; dsimp only; split
      · exact resume_eff _ _ _ _
      · simp

theorem step_fire (s : State α) (w : Nat) :
    emissions (step s (.fire w)).log = emissions s.log ∧ (step s (.fire w)).now = s.now ∧ (step s (.fire w)).alive = s.alive := by
  unfold step; split
  · simp
  · dsimp only; split
    · simp
    · split
      · split
        · exact resume_eff _ _ _ _
        · simp
      · simp

/-- A timeout fires only with the timeout elapsed; otherwise the step changes nothing that matters. -/
theorem answer_step_mono (s : State α) (op : Op α) {x} (h : answer s.log = some x) : answer (step s op).log = some x := by
  obtain ⟨l, hl⟩ := log_grows s op
  rw [hl, answer_append, h]; rfl

/-- The answer came no later than now. -/
theorem answer_now (t : Int) (ops : List (Op α)) (hops : ∀ th k, .await th k ∉ ops) :
    ∀ r n, answer (one t ops).log = some (r, n) → n ≤ (one t ops).now := by
  induction ops using snocInd with
  | nil => intro r n h; simp [one, exec, step, State.emit, answer, answerOf] at h
  | snoc l op ih =>
    have hl : ∀ th k, Op.await th k ∉ l := fun th k h => hops th k (by simp [h])
    have ih := ih hl
    have hu := one_ub t l hl
    have hop : ∀ th k, op ≠ .await th k := fun th k e => hops th k (by simp [e])
    intro r n h
    rw [one_snoc] at h ⊢
    generalize one t l = s at *
    have hres : ∀ (s' : State α) w th ie, s'.log = s.log → s'.now = s.now → answer (s'.resume w th ie).log = some (r, n) → n ≤ (s'.resume w th ie).now := by
      intro s' w th ie hlog hnow h
      rw [(resume_eff s' w th ie).2.1, hnow]
      have : (s'.resume w th ie).log = s.log ++ [.resumed w th (s'.ws w).result s'.now ie] := by
        unfold State.resume; dsimp only; split <;> simp [State.emit, hlog]
      rw [this, answer_append] at h
      cases ha : answer s.log with
      | some y => rw [ha] at h; cases h; exact ih _ _ ha
      | none =>
        rw [ha] at h
        cases w with
        | zero => simp [answer, answerOf] at h; omega
        | succ w => simp [answer, answerOf] at h
    cases op with
    | await th k => exact absurd rfl (hop th k)
    | emit th' a =>
      unfold step at h ⊢
      simp only [hu, Option.isSome_none, Bool.false_eq_true, if_false] at h ⊢
      split at h
      · rename_i hal
        rw [if_pos hal]
        rw [emit_fold _ _ _ List.nodup_range] at h ⊢
        apply ih r
        simpa [State.emit, answer_append, answer, answerOf] using h
      · rename_i hal; rw [if_neg hal]; exact ih r n h
    | process th' =>
      unfold step at h ⊢
      simp only [hu, Option.isSome_none, Bool.false_eq_true, if_false] at h ⊢
      split at h
      · rename_i hp; exact ih r n h
      · rename_i w a rest hp
        skip
        unfold State.slot at h ⊢; dsimp only at h ⊢
        split at h
        · rename_i hw; rw [if_pos hw]; exact hres _ _ _ _ rfl rfl h
        · rename_i hw; rw [if_neg hw]; exact ih r n h
    | time d => rw [(step_time s hu d).2.1]; rw [(step_time s hu d).1] at h; have := ih r n h; omega
    | fire w' =>
      unfold step at h ⊢
      simp only [hu, Option.isSome_none, Bool.false_eq_true, if_false] at h ⊢
      split at h
      · rename_i hp; exact ih r n h
      · rename_i dd hp
        skip
        split at h
        · rename_i hd; rw [if_pos hd]
          split at h
          · rename_i hc; rw [if_pos hc]; exact hres _ _ _ _ rfl rfl h
          · rename_i hc; rw [if_neg hc]; exact ih r n h
        · rename_i hd; rw [if_neg hd]; exact ih r n h
    | destroy => rw [(step_destroy s hu).2.2.1]; rw [(step_destroy s hu).2.1] at h; exact ih r n h

/-- A delivered result is never empty. -/
theorem process_some (s : State α) (h0 : answer s.log = none) {n : Nat} (h : answer (step s (.process 0)).log = some (none, n)) : False := by
  unfold step at h
  split at h
  · rw [h0] at h; cases h
  · dsimp only at h
    split at h
    · rw [h0] at h; cases h
    · rename_i w a rest hp
      unfold State.slot at h; dsimp only at h
      split at h
      · have hlog : ∀ (s' : State α) w th ie, (s'.resume w th ie).log = s'.log ++ [.resumed w th (s'.ws w).result s'.now ie] := by
          intro s' w th ie; unfold State.resume; dsimp only; split <;> rfl
        rw [hlog, answer_append] at h
        dsimp only at h
        rw [h0] at h
        cases w with
        | zero => simp [answer, answerOf, upd_same] at h
        | succ w => simp [answer, answerOf] at h
      · rw [h0] at h; cases h

/-- A timeout is only noticed while the object exists. -/
theorem fire_alive (s : State α) (hi : Inv s) (h0 : answer s.log = none) {x} (h : answer (step s (.fire 0)).log = some x) : s.alive = true := by
  have hr := hi.rel 0
  have htc : (s.ws 0).timerConn = true → s.alive = true := by
    intro ht
    cases hp : (Spec.after s.log).ph 0 with
    | unborn => rw [hp] at hr; simp [Rel, ht] at hr
    | over => rw [hp] at hr; simp [Rel, ht] at hr
    | waiting th k t0 ems dead => rw [hp] at hr; have := hr.2.2.2.2.2.2.2.2.1; rw [ht] at this; simp at this; exact this.1
  unfold step at h
  split at h
  · rw [h0] at h; cases h
  · dsimp only at h
    split at h
    · rw [h0] at h; cases h
    · split at h
      · split at h
        · rename_i hc; exact htc hc
        · rw [h0] at h; cases h
      · rw [h0] at h; cases h

/-- A fired timer carries no value. -/
theorem fire_none (s : State α) (hi : Inv s) (h0 : answer s.log = none) {r n} (h : answer (step s (.fire 0)).log = some (r, n)) : r = none := by
  have hr := hi.rel 0
  have htc : (s.ws 0).timerConn = true → (s.ws 0).result = none := by
    intro ht
    cases hp : (Spec.after s.log).ph 0 with
    | unborn => rw [hp] at hr; simp [Rel, ht] at hr
    | over => rw [hp] at hr; simp [Rel, ht] at hr
    | waiting th k t0 ems dead => rw [hp] at hr; exact hr.2.2.2.2.1
  have hlog : ∀ (s' : State α) w th ie, (s'.resume w th ie).log = s'.log ++ [.resumed w th (s'.ws w).result s'.now ie] := by
    intro s' w th ie; unfold State.resume; dsimp only; split <;> rfl
  unfold step at h
  split at h
  · rw [h0] at h; cases h
  · dsimp only at h
    split at h
    · rw [h0] at h; cases h
    · split at h
      · split at h
        · rename_i hc
          rw [hlog, answer_append] at h
          dsimp only at h
          rw [h0] at h
          simp [answer, answerOf, upd_same, htc hc] at h
          exact h.1.symm
        · rw [h0] at h; cases h
      · rw [h0] at h; cases h

end QCoro.Sig
