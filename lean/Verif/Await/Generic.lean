import Verif.Await.Model
/- What the awaiter machine does, for every awaiter class that is well formed and every environment. -/
namespace QCoro.Aw
variable {σ δ β : Type} {a : Awaiter σ δ β} {d : Option δ}

theorem device_nil (d : Option δ) : device d ([] : List (Op σ δ)) = d := rfl
theorem device_snoc (ops : List (Op σ δ)) (op : Op σ δ) :
    device d (ops ++ [op]) = match op with | .gone => none | .dev d' => (device d ops).map fun _ => d' | _ => device d ops := by
  simp only [device, List.foldl_append, List.foldl_cons, List.foldl_nil]
  cases op <;> rfl
theorem device_append (d : Option δ) (l l' : List (Op σ δ)) : device d (l ++ l') = device (device d l) l' := by simp [device]
theorem device_one (d : Option δ) (op : Op σ δ) :
    device d [op] = match op with | .gone => none | .dev d' => d.map fun _ => d' | _ => d := rfl
theorem elapsed_snoc (ops : List (Op σ δ)) (op : Op σ δ) :
    elapsed (ops ++ [op]) = elapsed ops + match op with | .time n => n | _ => 0 := by
  induction ops with
  | nil => cases op <;> simp [elapsed]
  | cons o l ih => cases o <;> simp [elapsed, ih] <;> omega

theorem split_snoc {α : Type} {l p q : List α} {x y : α} (h : l ++ [x] = p ++ y :: q) :
    (p = l ∧ y = x ∧ q = []) ∨ ∃ q', q = q' ++ [x] ∧ l = p ++ y :: q' := by
  rcases List.eq_nil_or_concat q with hq | ⟨q', z, hq⟩
  · subst hq; left
    have := List.append_inj' h rfl
    simp_all
  · subst hq; right
    rw [List.concat_eq_append, ← List.cons_append, ← List.append_assoc] at h
    have := List.append_inj' h rfl
    refine ⟨q', ?_, this.1⟩
    simp_all

theorem untriggered_snoc (ops : List (Op σ δ)) (op : Op σ δ) :
    Untriggered a d (ops ++ [op]) ↔ Untriggered a d ops ∧ ¬ Trigger a d ops op := by
  constructor
  · intro h
    refine ⟨fun p o q e => h p o (q ++ [op]) (by simp [e]), h ops op [] rfl⟩
  · rintro ⟨h1, h2⟩ p o q e
    rcases split_snoc e with ⟨rfl, rfl, rfl⟩ | ⟨q', rfl, e'⟩
    · exact h2
    · exact h1 p o q' e'

theorem untriggered_nil : Untriggered a d [] := by
  intro p o q e; simp at e

/-- Well-formedness: something prevents a second resumption; timers are stopped by the slot. -/
def WF (a : Awaiter σ δ β) : Prop :=
  (a.disc = true ∨ ((a.once = true ∨ a.ctx = true) ∧ a.timeout = none))

inductive Ph (a : Awaiter σ δ β) (d : Option δ) (ops : List (Op σ δ)) (s : State δ β) : Prop
  | armed (h : Untriggered a d ops) (ho : s.out = []) (hp : s.posted = 0) (hd : s.dev = device d ops)
      (hc : s.conn = (device d ops).isSome) (ht : s.timer = a.timeout.map (· - elapsed ops)) (hto : s.timedOut = false)
  | posted (pre : List (Op σ δ)) (op : Op σ δ) (mid : List (Op σ δ)) (he : ops = pre ++ op :: mid) (hf : First a d pre op)
      (hdef : a.deferred = true) (hm : Op.loop ∉ mid) (ho : s.out = []) (hd : s.dev = device d ops)
      (hto : s.timedOut = isFire op) (ht : s.timer = none) (hp : 1 ≤ s.posted)
      (hx : a.ctx = true ∨ s.posted = 1 ∧ s.conn = false)
  | doneD (pre : List (Op σ δ)) (op : Op σ δ) (mid post : List (Op σ δ)) (he : ops = pre ++ op :: mid ++ Op.loop :: post)
      (hf : First a d pre op) (hdef : a.deferred = true) (hm : Op.loop ∉ mid)
      (ho : s.out = [.got (a.result (isFire op) (device d (pre ++ op :: mid))).1])
      (ht : s.timer = none) (hp : s.posted = 0) (hc : s.conn = false)
  | done (pre : List (Op σ δ)) (op : Op σ δ) (post : List (Op σ δ)) (he : ops = pre ++ op :: post)
      (hf : First a d pre op) (hdef : a.deferred = false)
      (ho : s.out = [.got (a.result (isFire op) (device d pre)).1])
      (ht : s.timer = none) (hp : s.posted = 0) (hc : s.conn = false)

theorem trigger_not_loop {pre : List (Op σ δ)} {op : Op σ δ} (h : Trigger a d pre op) : op ≠ .loop := by
  rintro rfl; exact h

theorem ph_step (wf : WF a) {ops : List (Op σ δ)} {s : State δ β} (h : Ph a d ops s) (op : Op σ δ) :
    Ph a d (ops ++ [op]) (step a s op) := by
  cases h with
  | armed h ho hp hd hc ht hto =>
    have quiet : ¬ Trigger a d ops op → step a s op = { s with dev := device d (ops ++ [op]), conn := (device d (ops ++ [op])).isSome, timer := a.timeout.map (· - elapsed (ops ++ [op])) } → Ph a d (ops ++ [op]) (step a s op) := by
      intro h1 h2
      rw [h2]
      exact .armed ((untriggered_snoc _ _).2 ⟨h, h1⟩) ho hp rfl rfl rfl hto
    cases s with | mk sdev conn timer timedOut posted out =>
    simp only at ho hp hd hc ht hto
    subst ho hp hd hc ht hto
    have hit : Trigger a d ops op → step a ⟨device d ops, (device d ops).isSome, a.timeout.map (· - elapsed ops), false, 0, []⟩ op =
          State.slot a ⟨device d ops, (device d ops).isSome, if isFire op then none else a.timeout.map (· - elapsed ops), isFire op, 0, []⟩ →
          device d (ops ++ [op]) = device d ops →
          Ph a d (ops ++ [op]) (step a ⟨device d ops, (device d ops).isSome, a.timeout.map (· - elapsed ops), false, 0, []⟩ op) := by
      intro htr he hde
      rw [he]
      have htn : (if a.disc = true then none else if isFire op = true then none else a.timeout.map (· - elapsed ops)) = none := by
        rcases wf with w | ⟨_, w⟩ <;> simp [w]
      by_cases hdef : a.deferred = true
      · refine .posted ops op [] rfl ⟨h, htr⟩ hdef (by simp) ?_ ?_ ?_ ?_ ?_ ?_
        all_goals simp [State.slot, hdef, hde, htn]
        rcases wf with w | ⟨w | w, _⟩ <;> simp [w]
      · have hdef : a.deferred = false := by simpa using hdef
        refine .done ops op [] rfl ⟨h, htr⟩ hdef ?_ ?_ ?_ ?_
        all_goals simp [State.slot, hdef, State.resume, htn]
        rcases wf with w | ⟨w | w, _⟩ <;> simp [w]
    cases op with
    | sig x =>
      by_cases ht : a.trig x = true ∧ (device d ops).isSome = true
      · apply hit ht
        · simp [step, ht.1, ht.2, isFire]
        · simp [device_snoc]
      · apply quiet ht
        simp only [step, device_snoc, elapsed_snoc, Nat.add_zero]
        rw [if_neg]
        intro hh; apply ht; simp_all
    | dev d' => apply quiet (by simp [Trigger]); simp [step, device_snoc, elapsed_snoc]
    | gone => apply quiet (by simp [Trigger]); simp [step, device_snoc, elapsed_snoc]
    | loop => apply quiet (by simp [Trigger]); simp [step, device_snoc, elapsed_snoc]
    | time n =>
      apply quiet (by simp [Trigger])
      simp only [step, device_snoc, elapsed_snoc, Option.map_map]
      congr 1; congr 1
      funext x; simp; omega
    | fire =>
      by_cases ht : ∃ t, a.timeout = some t ∧ t ≤ elapsed ops
      · apply hit ht
        · obtain ⟨t, h1, h2⟩ := ht
          simp [step, h1, isFire, h2]
        · simp [device_snoc]
      · apply quiet ht
        simp only [step, device_snoc, elapsed_snoc, Nat.add_zero]
        rw [if_neg]
        intro hh; apply ht
        cases h1 : a.timeout with
        | none => simp [h1] at hh
        | some t => simp [h1] at hh; exact ⟨t, rfl, by omega⟩
  | posted pre o mid he hf hdef hm ho hd hto ht hp hx =>
    subst he
    cases s with | mk sdev conn timer timedOut posted out =>
    simp only at ho hd hto ht hp hx
    subst ho hd hto ht
    have stay : op ≠ .loop → ∀ s' : State δ β, s' = step a ⟨device d (pre ++ o :: mid), conn, none, isFire o, posted, []⟩ op → s'.out = [] →
        s'.dev = device (device d (pre ++ o :: mid)) [op] → s'.timedOut = isFire o → s'.timer = none → 1 ≤ s'.posted →
        (a.ctx = true ∨ s'.posted = 1 ∧ s'.conn = false) → Ph a d ((pre ++ o :: mid) ++ [op]) s' := by
      intro h1 s' h2 h3 h4 h5 h6 h7 h8
      refine .posted pre o (mid ++ [op]) (by simp) hf hdef (by simp; exact ⟨hm, fun e => h1 e.symm⟩) h3 (h4.trans (device_append _ _ _).symm) h5 h6 h7 h8
    cases op with
    | sig x =>
      apply stay (by simp) _ rfl
      all_goals simp only [step]
      all_goals split <;> simp [State.slot, hdef, device_one]
      · omega
      · rcases hx with hx | hx
        · exact .inl hx
        · simp_all
      · exact hx
    | dev d' => apply stay (by simp) _ rfl <;> simp [step, device_one, hp]; exact hx
    | gone => apply stay (by simp) _ rfl <;> simp [step, device_one, hp]; exact hx.imp id (·.1)
    | loop =>
      refine .doneD pre o mid [] rfl hf hdef hm ?_ ?_ ?_ ?_
      all_goals
        simp only [step]
        rw [if_neg (by omega)]
        simp [State.resume]
      · intro hc; rcases hx with hx | hx
        · simp [hx] at hc
        · omega
      · rcases hx with hx | hx
        · exact fun _ => hx
        · intro h; simp [hx.2] at h
    | time n => apply stay (by simp) _ rfl <;> simp [step, device_one, hp]; exact hx
    | fire => apply stay (by simp) _ rfl <;> simp [step, device_one, hp]; exact hx
  | doneD pre o mid post he hf hdef hm ho ht hp hc =>
    subst he
    refine .doneD pre o mid (post ++ [op]) (by simp) hf hdef hm ?_ ?_ ?_ ?_
    all_goals cases op <;> simp [step, ho, ht, hp, hc]
  | done pre o post he hf hdef ho ht hp hc =>
    subst he
    refine .done pre o (post ++ [op]) (by simp) hf hdef ?_ ?_ ?_ ?_
    all_goals cases op <;> simp [step, ho, ht, hp, hc]

/-- A suspended `co_await`. -/
theorem ph_run (wf : WF a) {d0 : Option δ} {gap : List (Op σ δ)} (hr : a.ready d0 = false) (hs : a.skip (device d0 gap) = false)
    (ops : List (Op σ δ)) : Ph a (device d0 gap) ops (run a d0 gap ops) := by
  induction ops using snocInd with
  | nil =>
    refine .armed untriggered_nil ?_ ?_ ?_ ?_ ?_ ?_ <;> simp [run, start, hr, hs, device_nil, elapsed]
  | snoc ops op ih => rw [run_snoc]; exact ph_step wf ih op

/-! ### Consequences -/

/-- A `co_await` whose `await_suspend` does nothing (already ready): it returns at once and is never resumed again. -/
theorem ready_out {d0 : Option δ} (gap : List (Op σ δ)) (hr : a.ready d0 = true) (ops : List (Op σ δ)) :
    (run a d0 gap ops).out = [.got (a.result false d0).1] ∧ (run a d0 gap ops).posted = 0 ∧
      (run a d0 gap ops).conn = false ∧ (run a d0 gap ops).timer = none := by
  induction ops using snocInd with
  | nil => simp [run, start, hr, State.resume]
  | snoc ops op ih =>
    rw [run_snoc]
    obtain ⟨h1, h2, h3, h4⟩ := ih
    cases op <;> simp [step, h1, h2, h3, h4]

theorem skip_out {d0 : Option δ} (gap : List (Op σ δ)) (hr : a.ready d0 = false) (hs : a.skip (device d0 gap) = true) (ops : List (Op σ δ)) :
    (run a d0 gap ops).out = [.got (a.result false (device d0 gap)).1] ∧ (run a d0 gap ops).posted = 0 ∧
      (run a d0 gap ops).conn = false ∧ (run a d0 gap ops).timer = none := by
  induction ops using snocInd with
  | nil => simp [run, start, hr, hs, State.resume]
  | snoc ops op ih =>
    rw [run_snoc]
    obtain ⟨h1, h2, h3, h4⟩ := ih
    cases op <;> simp [step, h1, h2, h3, h4]

/-- No second resumption. -/
theorem out_le_one (wf : WF a) (d0 : Option δ) (gap ops : List (Op σ δ)) :
    (run a d0 gap ops).out = [] ∨ ∃ b, (run a d0 gap ops).out = [.got b] := by
  cases hr : a.ready d0 with
  | true => exact .inr ⟨_, (ready_out gap hr ops).1⟩
  | false =>
    cases hs : a.skip (device d0 gap) with
    | true => exact .inr ⟨_, (skip_out gap hr hs ops).1⟩
    | false =>
      cases ph_run wf hr hs ops with
      | armed _ ho => exact .inl ho
      | posted _ _ _ _ _ _ _ ho => exact .inl ho
      | doneD _ _ _ _ _ _ _ _ ho => exact .inr ⟨_, ho⟩
      | done _ _ _ _ _ _ ho => exact .inr ⟨_, ho⟩

theorem first_unique {pre pre' : List (Op σ δ)} {op op' : Op σ δ} {q q' : List (Op σ δ)} (h : First a d pre op) (h' : First a d pre' op')
    (e : pre ++ op :: q = pre' ++ op' :: q') : pre = pre' ∧ op = op' ∧ q = q' := by
  rcases List.append_eq_append_iff.1 e with ⟨l, h1, h2⟩ | ⟨l, h1, h2⟩
  · cases l with
    | nil => simp at h1 h2; exact ⟨h1.symm, h2.1, h2.2⟩
    | cons x l =>
      simp at h2
      obtain ⟨rfl, rfl⟩ := h2
      exact absurd h.2 (h'.1 pre op l h1)
  · cases l with
    | nil => simp at h1 h2; exact ⟨h1, h2.1.symm, h2.2.symm⟩
    | cons x l =>
      simp at h2
      obtain ⟨rfl, rfl⟩ := h2
      exact absurd h'.2 (h.1 pre' op' l h1)

theorem loop_split {mid mid' post post' : List (Op σ δ)} (hm : Op.loop ∉ mid) (hm' : Op.loop ∉ mid')
    (e : mid ++ Op.loop :: post = mid' ++ Op.loop :: post') : mid = mid' ∧ post = post' := by
  rcases List.append_eq_append_iff.1 e with ⟨l, h1, h2⟩ | ⟨l, h1, h2⟩
  · cases l with
    | nil => simp at h1 h2; exact ⟨h1.symm, h2⟩
    | cons x l => simp at h2; obtain ⟨rfl, -⟩ := h2; simp [h1] at hm'
  · cases l with
    | nil => simp at h1 h2; exact ⟨h1, h2.symm⟩
    | cons x l => simp at h2; obtain ⟨rfl, -⟩ := h2; simp [h1] at hm

/-- Deferred awaiters: the result, exactly. -/
theorem deferred_iff (wf : WF a) (hdef : a.deferred = true) {d0 : Option δ} {gap : List (Op σ δ)} (hr : a.ready d0 = false)
    (hs : a.skip (device d0 gap) = false) (ops : List (Op σ δ)) (b : β) :
    (run a d0 gap ops).out = [.got b] ↔ ∃ pre op mid post, ops = pre ++ op :: mid ++ Op.loop :: post ∧
      First a (device d0 gap) pre op ∧ Op.loop ∉ mid ∧ b = (a.result (isFire op) (device (device d0 gap) (pre ++ op :: mid))).1 := by
  constructor
  · intro h
    cases ph_run wf hr hs ops with
    | armed _ ho => simp [ho] at h
    | posted _ _ _ _ _ _ _ ho => simp [ho] at h
    | doneD pre op mid post he hf _ hm ho =>
      refine ⟨pre, op, mid, post, he, hf, hm, ?_⟩
      rw [ho] at h; simp at h; exact h.symm
    | done _ _ _ _ _ hdef' => simp [hdef] at hdef'
  · rintro ⟨pre, op, mid, post, he, hf, hm, rfl⟩
    subst he
    cases ph_run wf hr hs (pre ++ op :: mid ++ Op.loop :: post) with
    | armed h ho => exact absurd hf.2 (h pre op (mid ++ Op.loop :: post) (by simp))
    | posted pre' op' mid' he hf' _ hm' ho =>
      have := first_unique (q := mid ++ Op.loop :: post) hf hf' (by simpa using he)
      exact absurd (by simp [← this.2.2]) hm'
    | doneD pre' op' mid' post' he hf' _ hm' ho =>
      have := first_unique (q := mid ++ Op.loop :: post) (q' := mid' ++ Op.loop :: post') hf hf' (by simpa using he)
      obtain ⟨rfl, rfl, e⟩ := this
      obtain ⟨rfl, rfl⟩ := loop_split hm hm' e
      exact ho
    | done _ _ _ _ _ hdef' => simp [hdef] at hdef'

/-- Direct awaiters: the result, exactly. -/
theorem direct_iff (wf : WF a) (hdef : a.deferred = false) {d0 : Option δ} {gap : List (Op σ δ)} (hr : a.ready d0 = false)
    (hs : a.skip (device d0 gap) = false) (ops : List (Op σ δ)) (b : β) :
    (run a d0 gap ops).out = [.got b] ↔ ∃ pre op post, ops = pre ++ op :: post ∧
      First a (device d0 gap) pre op ∧ b = (a.result (isFire op) (device (device d0 gap) pre)).1 := by
  constructor
  · intro h
    cases ph_run wf hr hs ops with
    | armed _ ho => simp [ho] at h
    | posted _ _ _ _ _ _ _ ho => simp [ho] at h
    | doneD pre op mid post he hf hdef' => simp [hdef] at hdef'
    | done pre op post he hf _ ho =>
      refine ⟨pre, op, post, he, hf, ?_⟩
      rw [ho] at h; simp at h; exact h.symm
  · rintro ⟨pre, op, post, he, hf, rfl⟩
    subst he
    cases ph_run wf hr hs (pre ++ op :: post) with
    | armed h ho => exact absurd hf.2 (h pre op post rfl)
    | posted pre' op' mid' he hf' hdef' => simp [hdef] at hdef'
    | doneD _ _ _ _ _ _ hdef' => simp [hdef] at hdef'
    | done pre' op' post' he hf' _ ho =>
      obtain ⟨rfl, rfl, e⟩ := first_unique hf hf' he
      exact ho

/-- A deferred awaiter resumes only from the event loop: nothing but `loop` changes what the coroutine saw. -/
theorem only_in_loop (hdef : a.deferred = true) (s : State δ β) (op : Op σ δ) (h : op ≠ .loop) : (step a s op).out = s.out := by
  cases op <;> simp [step, State.slot, hdef] at * <;> split <;> rfl

/-- Unless it was triggered and, if deferred, the event loop ran since: no result. -/
theorem untriggered_out (wf : WF a) {d0 : Option δ} {gap : List (Op σ δ)} (hr : a.ready d0 = false)
    (hs : a.skip (device d0 gap) = false) (ops : List (Op σ δ)) (h : Untriggered a (device d0 gap) ops) : (run a d0 gap ops).out = [] := by
  cases ph_run wf hr hs ops with
  | armed _ ho => exact ho
  | posted _ _ _ _ _ _ _ ho => exact ho
  | doneD pre op mid post he hf => exact absurd hf.2 (h pre op (mid ++ Op.loop :: post) (by simp [he]))
  | done pre op post he hf => exact absurd hf.2 (h pre op post he)

/-- There is a first trigger in a history that has one. -/
theorem first_exists (ops : List (Op σ δ)) : Untriggered a d ops ∨ ∃ pre op post, ops = pre ++ op :: post ∧ First a d pre op := by
  induction ops using snocInd with
  | nil => exact .inl untriggered_nil
  | snoc ops op ih =>
    rcases ih with h | ⟨pre, o, post, rfl, h⟩
    · by_cases ht : Trigger a d ops op
      · exact .inr ⟨ops, op, [], by simp, h, ht⟩
      · exact .inl ((untriggered_snoc _ _).2 ⟨h, ht⟩)
    · exact .inr ⟨pre, o, post ++ [op], by simp, h⟩

theorem device_none (l : List (Op σ δ)) : device none l = none := by
  induction l using snocInd with
  | nil => rfl
  | snoc l op ih => rw [device_snoc]; cases op <;> simp [ih]


theorem device_isSome (d : δ) (l : List (Op σ δ)) : (device (some d) l).isSome = true ↔ Op.gone ∉ l := by
  induction l using snocInd with
  | nil => simp [device]
  | snoc l op ih => rw [device_snoc]; cases op <;> simp [ih]

/-- Without a timeout timer: the first of the awaited signals, emitted while the object existed. -/
theorem first_sig (ht : a.timeout = none) (d : δ) (pre : List (Op σ δ)) (op : Op σ δ) :
    First a (some d) pre op ↔ ∃ x, op = .sig x ∧ a.trig x = true ∧ Op.gone ∉ pre ∧ ∀ y, Op.sig y ∈ pre → a.trig y = false := by
  constructor
  · rintro ⟨h1, h2⟩
    cases op with
    | sig x =>
      have hg := (device_isSome d pre).1 h2.2
      refine ⟨x, rfl, h2.1, hg, ?_⟩
      intro y hy
      obtain ⟨p, q, rfl⟩ := List.append_of_mem hy
      cases hty : a.trig y with
      | false => rfl
      | true =>
        refine absurd ⟨hty, ?_⟩ (h1 p (.sig y) q rfl)
        rw [device_isSome]; intro hm; exact hg (by simp [hm])
    | fire => obtain ⟨t, h, _⟩ := h2; simp [ht] at h
    | _ => exact absurd h2 (by simp [Trigger])
  · rintro ⟨x, rfl, h1, h2, h3⟩
    refine ⟨?_, h1, (device_isSome d pre).2 h2⟩
    rintro p o q rfl hT
    cases o with
    | sig y => have := h3 y (by simp); simp [hT.1] at this
    | fire => obtain ⟨t, h, _⟩ := hT; simp [ht] at h
    | _ => exact hT

theorem untriggered_sig (ht : a.timeout = none) (d : δ) (ops : List (Op σ δ))
    (h : ∀ p y q, ops = p ++ Op.sig y :: q → a.trig y = true → Op.gone ∈ p) : Untriggered a (some d) ops := by
  rintro p o q rfl hT
  cases o with
  | sig y => exact (device_isSome d p).1 hT.2 (h p y q rfl hT.1)
  | fire => obtain ⟨t, h, _⟩ := hT; simp [ht] at h
  | _ => exact hT

/-- Triggered, and the event loop ran since: the coroutine got its result. -/
theorem deferred_complete (wf : WF a) {d0 : Option δ} {gap : List (Op σ δ)} (hr : a.ready d0 = false) (hs : a.skip (device d0 gap) = false)
    {p q : List (Op σ δ)} {op : Op σ δ} (hT : Trigger a (device d0 gap) p op) (hl : Op.loop ∈ q) :
    ∃ b, (run a d0 gap (p ++ op :: q)).out = [.got b] := by
  cases ph_run wf hr hs (p ++ op :: q) with
  | armed h => exact absurd hT (h p op q rfl)
  | doneD _ _ _ _ _ _ _ _ ho => exact ⟨_, ho⟩
  | done _ _ _ _ _ _ ho => exact ⟨_, ho⟩
  | posted pre o mid he hf _ hm =>
    exfalso
    rcases List.append_eq_append_iff.1 he with ⟨l, h1, h2⟩ | ⟨l, h1, h2⟩
    · cases l with
      | nil => simp at h1 h2; exact hm (h2.2 ▸ hl)
      | cons x l => simp at h2; obtain ⟨rfl, -⟩ := h2; exact hf.1 p op l h1 hT
    · cases l with
      | nil => simp at h1 h2; exact hm (h2.2 ▸ hl)
      | cons x l => simp at h2; obtain ⟨rfl, rfl⟩ := h2; exact hm (by simp [hl])

theorem direct_complete (wf : WF a) (hdef : a.deferred = false) {d0 : Option δ} {gap : List (Op σ δ)} (hr : a.ready d0 = false) (hs : a.skip (device d0 gap) = false)
    {p q : List (Op σ δ)} {op : Op σ δ} (hT : Trigger a (device d0 gap) p op) :
    ∃ b, (run a d0 gap (p ++ op :: q)).out = [.got b] := by
  cases ph_run wf hr hs (p ++ op :: q) with
  | armed h => exact absurd hT (h p op q rfl)
  | doneD _ _ _ _ _ _ _ _ ho => exact ⟨_, ho⟩
  | done _ _ _ _ _ _ ho => exact ⟨_, ho⟩
  | posted pre o mid he hf h => simp [hdef] at h

end QCoro.Aw
