import Verif.Listener.Inv
/-
Properties C33 and C34: `qCoroSignalListener`.  `exec timeout ops` is the state after an arbitrary history of emissions,
deliveries, timer expiries, object destruction and consumer behaviour.
-/
set_option linter.unusedSimpArgs false
namespace QCoro.Listener
variable {α : Type}

/-- Emissions since the listener was created. -/
def emissions (l : List (Ev α)) : List α := l.filterMap (fun | .emitted a _ => some a | _ => none)
/-- Values the consumer obtained. -/
def gots (l : List (Ev α)) : List α := l.filterMap (fun | .got r _ => r | _ => none)
/-- Is this event an answer to the consumer? -/
def isGot : Ev α → Bool | .got _ _ => true | _ => false

theorem emissions_snoc (l : List (Ev α)) (e : Ev α) :
    emissions (l ++ [e]) = emissions l ++ (match e with | .emitted a _ => [a] | _ => []) := by
  cases e <;> simp [emissions]
theorem gots_snoc (l : List (Ev α)) (e : Ev α) :
    gots (l ++ [e]) = gots l ++ (match e with | .got (some a) _ => [a] | _ => []) := by
  cases e with
  | got r n => cases r <;> simp [gots]
  | _ => simp [gots]

/-- The specification state, read off the log. -/
theorem spec_facts {t : Int} (l : List (Ev α)) (h : Legal Spec.next Spec.ok { timeout := t } l) :
    (Spec.after t l).emitted = emissions l ∧ (Spec.after t l).taken = (gots l).length ∧ gots l = (emissions l).take (gots l).length ∧
    ((Spec.after t l).alive = false ↔ ∃ n, .destroyed n ∈ l) ∧
    ((Spec.after t l).ended = true ↔ (∃ n, .got none n ∈ l) ∨ .dropped ∈ l) := by
  induction l using snocInd with
  | nil => simp [Spec.after, emissions, gots]
  | snoc l e ih =>
    obtain ⟨h1, h2, h3, h4, h5⟩ := ih h.prefix
    have hle := taken_le h.prefix
    have hok : Spec.ok (Spec.after t l) e := h l e [] rfl
    rw [Spec.after_snoc, emissions_snoc, gots_snoc]
    generalize Spec.after t l = S at *
    cases e with
    | emitted a n =>
      refine ⟨by simp [Spec.next, h1], by simp [Spec.next, h2], ?_, by simp [Spec.next, h4], by simp [Spec.next, h5]⟩
      simp only [List.append_nil]
      rw [List.take_append_of_le_length (by rw [← h1, ← h2]; exact hle)]; exact h3
    | destroyed n => exact ⟨by simp [Spec.next, h1], by simp [Spec.next, h2], by simpa using h3, by simp [Spec.next], by simp [Spec.next, h5]⟩
    | next n => exact ⟨by simp [Spec.next, h1], by simp [Spec.next, h2], by simpa using h3, by simp [Spec.next, h4], by simp [Spec.next, h5]⟩
    | dropped => exact ⟨by simp [Spec.next, h1], by simp [Spec.next, h2], by simpa using h3, by simp [Spec.next, h4], by simp [Spec.next]⟩
    | got r n =>
      cases r with
      | none => exact ⟨by simp [Spec.next, h1], by simp [Spec.next, h2], by simpa using h3, by simp [Spec.next, h4], by simp [Spec.next]⟩
      | some a =>
        obtain ⟨k1, k2, k3⟩ := hok
        refine ⟨by simp [Spec.next, h1], by simp [Spec.next, h2], ?_, by simp [Spec.next, h4], by simp [Spec.next, h5]⟩
        simp only [List.append_nil, List.length_append, List.length_singleton]
        rw [h1, h2] at k3
        rw [List.take_succ, k3, ← h3]; rfl

/-- No end was reported and the generator was not dropped. -/
def Going (l : List (Ev α)) : Prop := (∀ n, .got none n ∉ l) ∧ .dropped ∉ l

theorem going_iff {t : Int} {l : List (Ev α)} (h : Legal Spec.next Spec.ok { timeout := t } l) : Going l ↔ (Spec.after t l).ended = false := by
  have := (spec_facts l h).2.2.2.2
  unfold Going
  rw [← Bool.not_eq_true, this]
  simp

/-! ### C33 -/

/-- The values the consumer obtains are, in order and without gaps or repetition, a prefix of what was emitted. -/
theorem C33_in_order (t : Int) (ops : List (Op α)) : gots (exec t ops).log <+: emissions (exec t ops).log := by
  have h := spec_facts _ (inv_exec t ops).legal
  have ht : (exec t ops).timeout = (exec t ops).timeout := rfl
  rw [h.2.2.1]; exact List.take_prefix _ _

/-- Nothing is lost: what was emitted and not yet obtained is queued, in order, in the listener or in the event loop. -/
theorem C33_nothing_lost (t : Int) (ops : List (Op α)) (hu : (exec t ops).ub = none) (hg : Going (exec t ops).log) :
    emissions (exec t ops).log = gots (exec t ops).log ++ (exec t ops).queue ++ (exec t ops).posted := by
  have hi := inv_exec t ops
  generalize exec t ops = s at *
  have hf := spec_facts _ hi.legal
  have hend := (going_iff hi.legal).mp hg
  have hd : (Spec.after s.timeout s.log).emitted.drop (Spec.after s.timeout s.log).taken = s.queue ++ s.posted := by
    have hpos := hi.pos hu
    unfold Pos at hpos
    cases hgen : s.gen with
    | fresh => rw [hgen] at hpos; exact hpos.2.2.2.2.2.2.1
    | waiting t0 => rw [hgen] at hpos; rw [hpos.2.2.2.2.2.1]; exact hpos.2.2.2.2.2.2.2.2.1
    | yielded => rw [hgen] at hpos; exact hpos.2.2.2.2.2.2
    | done => rw [hgen] at hpos; rw [hpos.2.1] at hend; cases hend
    | gone => rw [hgen] at hpos; rw [hpos.2.1] at hend; cases hend
  rw [hf.1, hf.2.1] at hd
  rw [List.append_assoc, ← hd]
  conv => lhs; rw [← List.take_append_drop (gots s.log).length (emissions s.log), ← hf.2.2.1]

/-- Emissions that were delivered while the consumer was busy are returned synchronously by the next `++`, oldest first. -/
theorem C33_backlog (t : Int) (ops : List (Op α)) (hu : (exec t ops).ub = none) (hg : Going (exec t ops).log)
    (hr : (exec t ops).running = true) (hq : (exec t ops).posted = [])
    (a : α) (ha : (emissions (exec t ops).log)[(gots (exec t ops).log).length]? = some a) :
    (exec t (ops ++ [.next])).log = (exec t ops).log ++ [.next (exec t ops).now, .got (some a) (exec t ops).now] ∧
    (exec t (ops ++ [.next])).ub = none ∧ (exec t (ops ++ [.next])).running = true := by
  have hl := C33_nothing_lost t ops hu hg
  have hi := inv_exec t ops
  rw [exec_snoc]
  generalize exec t ops = s at *
  have hend := (going_iff hi.legal).mp hg
  have hpos := hi.pos hu
  have hgen : s.gen = .fresh ∨ s.gen = .yielded := by
    unfold Pos at hpos
    cases h : s.gen with
    | fresh => exact .inl rfl
    | yielded => exact .inr rfl
    | waiting t0 => rw [h] at hpos; have := hpos.2.2.2.1; rw [hr] at this; cases this
    | done => rw [h] at hpos; rw [hpos.2.1] at hend; cases hend
    | gone => rw [h] at hpos; rw [hpos.2.1] at hend; cases hend
  obtain ⟨q, hqq⟩ : ∃ q, s.queue = a :: q := by
    rw [hq, List.append_nil] at hl
    rw [hl] at ha
    cases h : s.queue with
    | nil => rw [h] at ha; simp at ha
    | cons b q => rw [h] at ha; simp at ha; exact ⟨q, by rw [ha]⟩
  unfold step
  rw [if_neg (by simp [hu])]
  dsimp only
  rw [if_pos ⟨hr, hgen⟩]
  have e : ∀ s' : State α, s'.gen = s.gen → s'.resumeGen = s'.awaitQueue := by
    intro s' e; unfold State.resumeGen; rcases hgen with h | h <;> rw [e, h]
  rw [e (({ s with running := false, cwait := true } : State α).emit (.next s.now)) rfl]
  have e2 : (({ s with running := false, cwait := true } : State α).emit (.next s.now)).awaitQueue =
      ({ s with running := true, cwait := false, gen := .yielded, queue := q, log := s.log ++ [.next s.now] ++ [.got (some a) s.now] } : State α) := by
    unfold State.awaitQueue
    rw [if_pos (.inr (by simp [State.emit, hqq]))]
    unfold State.dequeue
    simp only [State.emit, hqq, State.toConsumer, if_true]
  rw [e2, if_pos rfl]
  exact ⟨by simp, hu, rfl⟩

/-- The consumer asked and has no answer yet (it is suspended in `begin()` or `++`). -/
def Asked (l : List (Ev α)) (t0 : Nat) : Prop := ∃ p q, l = p ++ .next t0 :: q ∧ ∀ e ∈ q, isGot e = false

theorem asked_wait {t : Int} {l : List (Ev α)} (h : Legal Spec.next Spec.ok { timeout := t } l) (t0 : Nat) (ha : Asked l t0) :
    ∃ d, (Spec.after t l).wait = some (t0, d) := by
  obtain ⟨p, q, rfl, hq⟩ := ha
  have : ∀ q : List (Ev α), (∀ e ∈ q, isGot e = false) → Legal Spec.next Spec.ok { timeout := t } (p ++ .next t0 :: q) →
      (Spec.after t (p ++ .next t0 :: q)).wait = some (t0, !(Spec.after t p).alive) := by
    intro q
    induction q using snocInd with
    | nil => intro _ _; rw [Spec.after_snoc]; rfl
    | snoc q e ih =>
      intro hq hl
      rw [show p ++ Ev.next t0 :: (q ++ [e]) = (p ++ Ev.next t0 :: q) ++ [e] by simp] at hl ⊢
      have ih := ih (fun e he => hq e (by simp [he])) hl.prefix
      have hok : Spec.ok (Spec.after t (p ++ Ev.next t0 :: q)) e := hl _ e [] rfl
      have hne := hq e (by simp)
      rw [Spec.after_snoc]
      cases e with
      | got r n => cases hne
      | next n => have := hok.1; rw [ih] at this; cases this
      | emitted a n => exact ih
      | destroyed n => exact ih
      | dropped => exact ih
  exact ⟨_, this q hq h⟩

theorem asked_gen {s : State α} (hi : Inv s) (hu : s.ub = none) (t0 : Nat) (ha : Asked s.log t0) : s.gen = .waiting t0 := by
  obtain ⟨d, hw⟩ := asked_wait hi.legal t0 ha
  have hpos := hi.pos hu
  unfold Pos at hpos
  cases h : s.gen with
  | fresh => rw [h] at hpos; rw [hpos.1] at hw; cases hw
  | yielded => rw [h] at hpos; rw [hpos.1] at hw; cases hw
  | done => rw [h] at hpos; rw [hpos.1] at hw; cases hw
  | gone => rw [h] at hpos; rw [hpos.1] at hw; cases hw
  | waiting t1 => rw [h] at hpos; rw [hpos.1] at hw; cases hw; rfl

/-- A waiting consumer obtains the oldest outstanding emission as soon as the event loop delivers one event. -/
theorem C33_waiting (t : Int) (ops : List (Op α)) (hu : (exec t ops).ub = none) (t0 : Nat) (hasked : Asked (exec t ops).log t0)
    (a : α) (ha : (emissions (exec t ops).log)[(gots (exec t ops).log).length]? = some a) :
    (exec t (ops ++ [.deliver])).log = (exec t ops).log ++ [.got (some a) (exec t ops).now] ∧ (exec t (ops ++ [.deliver])).ub = none := by
  have hi := inv_exec t ops
  rw [exec_snoc]
  have hl := C33_nothing_lost t ops hu
  generalize exec t ops = s at *
  have hgen := asked_gen hi hu t0 hasked
  have hpos := hi.pos hu
  unfold Pos at hpos; rw [hgen] at hpos; simp only [] at hpos
  obtain ⟨a1, a2, a3, a4, a5, a6, a7, a8, a9, a10⟩ := hpos
  have hl := hl ((going_iff hi.legal).mpr a2)
  rw [a6, List.append_nil] at hl
  obtain ⟨q, hqq⟩ : ∃ q, s.posted = a :: q := by
    rw [hl] at ha
    cases h : s.posted with
    | nil => rw [h] at ha; simp at ha
    | cons b q => rw [h] at ha; simp at ha; exact ⟨q, by rw [ha]⟩
  unfold step
  rw [if_neg (by simp [hu])]
  dsimp only
  rw [if_neg (by simp [a4]), hqq]
  dsimp only
  unfold State.slot
  dsimp only
  rw [if_pos a5]
  unfold State.resumeGen
  simp only [hgen, a6, List.nil_append]
  unfold State.dequeue State.toConsumer
  simp only [a3, if_true, State.emit]
  exact ⟨trivial, hu⟩

/-- **Counterexample to C33** (the documented use): once the generator has waited, an emission that arrives while the
consumer is suspended elsewhere resumes the consumer there, undefined behaviour. -/
theorem C33_busy_consumer_ub (t : Int) (ops : List (Op α)) (hu : (exec t ops).ub = none)
    (haw : (exec t ops).awaiting = true) (hgen : (exec t ops).gen = .yielded) (hrun : (exec t ops).running = false)
    (hp : (exec t ops).posted ≠ []) : (exec t (ops ++ [.deliver])).ub = some .spuriousResume := by
  have hi := inv_exec t ops
  rw [exec_snoc]
  generalize exec t ops = s at *
  have hpos := hi.pos hu
  unfold Pos at hpos; rw [hgen] at hpos; simp only [] at hpos
  obtain ⟨a1, a2, a3, a4⟩ := hpos
  unfold step
  rw [if_neg (by simp [hu])]
  dsimp only
  rw [if_neg (by simp [hrun])]
  cases h : s.posted with
  | nil => exact absurd h hp
  | cons b q =>
    dsimp only
    unfold State.slot; dsimp only
    rw [if_pos haw]
    unfold State.resumeGen
    simp only [hgen]
    unfold State.awaitQueue
    rw [if_pos (.inr (by simp))]
    unfold State.dequeue
    cases hq : s.queue <;> simp [State.toConsumer, a3]

/-- The example of the documentation: `it = co_await begin(); …; co_await something else; co_await ++it`. -/
theorem C33_documented_use_ub :
    (exec (-1) [.next, .pause, .emit (1 : Nat), .deliver, .pause, .emit 2, .deliver]).ub = some .spuriousResume := by decide

/-- The consumer suspends elsewhere (or ends) only before it starts to iterate or after it dropped the generator. -/
def Polite (t : Int) (ops : List (Op α)) : Prop :=
  ∀ p q, ops = p ++ .pause :: q → (∀ n, .next n ∉ (exec t p).log) ∨ .dropped ∈ (exec t p).log

/-- Auxiliary: position of the generator by log. -/
structure Where (s : State α) : Prop where
  fresh : (∃ n, .next n ∈ s.log) ∨ s.gen = .fresh ∨ s.gen = .gone
  gone : .dropped ∈ s.log → s.gen = .gone

theorem dequeue_log (s : State α) : ∃ l, s.dequeue.log = s.log ++ l ∧ .dropped ∉ l ∧ s.dequeue.gen ≠ .fresh := by
  unfold State.dequeue
  split <;> unfold State.toConsumer <;> split <;> simp [State.emit]

theorem awaitQueue_log (s : State α) : ∃ l, s.awaitQueue.log = s.log ++ l ∧ .dropped ∉ l := by
  unfold State.awaitQueue
  split
  · obtain ⟨l, h1, h2, _⟩ := dequeue_log s; exact ⟨l, h1, h2⟩
  · dsimp only; split <;> exact ⟨[], by simp, by simp⟩

theorem resumeGen_log (s : State α) : ∃ l, s.resumeGen.log = s.log ++ l ∧ .dropped ∉ l ∧ (s.gen = .gone → s.resumeGen = s) := by
  unfold State.resumeGen
  cases h : s.gen with
  | fresh => obtain ⟨l, h1, h2⟩ := awaitQueue_log s; exact ⟨l, h1, h2, by simp⟩
  | yielded => obtain ⟨l, h1, h2⟩ := awaitQueue_log s; exact ⟨l, h1, h2, by simp⟩
  | waiting t0 => obtain ⟨l, h1, h2, _⟩ := dequeue_log s; exact ⟨l, h1, h2, by simp⟩
  | done => exact ⟨[], by simp, by simp, by simp⟩
  | gone => exact ⟨[], by simp, by simp, by simp⟩

theorem timeouts_log (n : Nat) (s : State α) : ∃ l, (State.timeouts n s).log = s.log ++ l ∧ .dropped ∉ l ∧ (s.gen = .gone → (State.timeouts n s).gen = .gone) := by
  induction n generalizing s with
  | zero => exact ⟨[], by simp [State.timeouts], by simp, fun h => h⟩
  | succ n ih =>
    unfold State.timeouts
    split
    · exact ⟨[], by simp, by simp, fun h => h⟩
    · split
      · exact ⟨[], by simp, by simp, fun h => h⟩
      · obtain ⟨l1, h1, h2, h3⟩ := resumeGen_log ({ s with conn := false } : State α)
        obtain ⟨l2, k1, k2, k3⟩ := ih (({ s with conn := false } : State α).resumeGen)
        refine ⟨l1 ++ l2, by rw [k1, h1]; simp, by simp [h2, k2], ?_⟩
        intro hg; apply k3; rw [h3 hg]; exact hg

theorem where_init (t : Int) : Where ({ timeout := t } : State α) := ⟨.inr (.inl rfl), fun h => by cases h⟩

theorem where_step {s : State α} (hi : Inv s) (h : Where s) (op : Op α) : Where (step s op) := by
  unfold step
  split
  · exact h
  rename_i hub
  have hu : s.ub = none := by simpa using hub
  have mono : ∀ {s' : State α} {l}, s'.log = s.log ++ l → .dropped ∉ l → ((∃ n, .next n ∈ s.log) ∨ s'.gen = .fresh ∨ s'.gen = .gone) →
      (s.gen = .gone → s'.gen = .gone) → Where s' := by
    intro s' l e1 e2 e3 e4
    refine ⟨?_, ?_⟩
    · rcases e3 with ⟨n, hn⟩ | e3
      · exact .inl ⟨n, by rw [e1]; simp [hn]⟩
      · exact .inr e3
    · intro hd; rw [e1] at hd
      rcases List.mem_append.mp hd with hd | hd
      · exact e4 (h.gone hd)
      · exact absurd hd e2
  have hsame : ∀ {s' : State α} {l}, s'.log = s.log ++ l → .dropped ∉ l → s'.gen = s.gen → Where s' := by
    intro s' l e1 e2 e3
    refine mono e1 e2 ?_ (fun hg => by rw [e3]; exact hg)
    rw [e3]; exact h.fresh
  cases op with
  | emit a =>
    dsimp only; split
    · split
      · exact hsame (l := [.emitted a s.now]) rfl (by simp) rfl
      · exact hsame (l := [.emitted a s.now]) rfl (by simp) rfl
    · exact h
  | destroyObj =>
    dsimp only; split
    · exact hsame (l := [.destroyed s.now]) rfl (by simp) rfl
    · exact h
  | time d => exact ⟨h.fresh, h.gone⟩
  | deliver =>
    dsimp only; split
    · exact h
    split
    · exact h
    rename_i a rest hp
    unfold State.slot; dsimp only
    split
    · rename_i haw
      have hpos := hi.pos hu
      obtain ⟨l, e1, e2, e3⟩ := resumeGen_log ({ ({ s with posted := rest } : State α) with timer := none, queue := s.queue ++ [a] } : State α)
      have hgen : s.gen ≠ .fresh ∧ s.gen ≠ .gone := by
        unfold Pos at hpos
        constructor
        · intro e; rw [e] at hpos; rw [show s.awaiting = false from hpos.2.2.2.2.2.2.2.1] at haw; cases haw
        · intro e; rw [e] at hpos; rw [show s.awaiting = false from hpos.2.2.2.2.2.2.1] at haw; cases haw
      refine mono e1 e2 (.inl ?_) (fun e => absurd e hgen.2)
      rcases h.fresh with h | h | h
      · exact h
      · exact absurd h hgen.1
      · exact absurd h hgen.2
    · exact hsame (l := []) (by simp) (by simp) rfl
  | fire =>
    dsimp only; split
    · exact h
    split
    · exact h
    rename_i d hd
    split
    · obtain ⟨l, e1, e2, e3⟩ := timeouts_log s.nconn ({ s with timer := none } : State α)
      have hpos := hi.pos hu
      refine mono e1 e2 (.inl ?_) e3
      rcases h.fresh with h | h | h
      · exact h
      · unfold Pos at hpos; rw [h] at hpos; have := hpos.2.2.2.1; rw [hd] at this; cases this
      · unfold Pos at hpos; rw [h] at hpos; have := hpos.2.2.2.1; rw [hd] at this; cases this
    · exact h
  | next =>
    dsimp only; split
    · rename_i hc
      have hng : s.gen ≠ .gone := by rcases hc.2 with e | e <;> rw [e] <;> simp
      have hnd : .dropped ∉ s.log := fun hd => hng (h.gone hd)
      have key : ∀ s' : State α, (∃ l, s'.log = (s.log ++ [.next s.now]) ++ l ∧ .dropped ∉ l) → Where s' := by
        rintro s' ⟨l, e1, e2⟩
        refine ⟨.inl ⟨s.now, by rw [e1]; simp⟩, fun hd => ?_⟩
        rw [e1] at hd
        simp [hnd, e2] at hd
      obtain ⟨l1, e1, e2, _⟩ := resumeGen_log (({ s with running := false, cwait := true } : State α).emit (.next s.now))
      generalize (({ s with running := false, cwait := true } : State α).emit (.next s.now)).resumeGen = s2 at *
      split
      · exact key _ ⟨l1, e1, e2⟩
      · obtain ⟨l2, f1, f2, _⟩ := timeouts_log s2.pending s2
        exact key _ ⟨l1 ++ l2, by rw [f1, e1]; simp [State.emit], by simp [e2, f2]⟩
    · exact h
  | pause =>
    dsimp only; split
    · have hpos := hi.pos hu
      obtain ⟨l, e1, e2, e3⟩ := timeouts_log s.pending ({ s with running := false } : State α)
      rcases h.fresh with h' | h' | h'
      · exact mono e1 e2 (.inl h') e3
      · have hp : s.pending = 0 := by unfold Pos at hpos; rw [h'] at hpos; exact hpos.2.2.2.2.1
        rw [hp]; exact hsame (l := []) (by simp [State.timeouts]) (by simp) rfl
      · exact mono e1 e2 (.inr (.inr (e3 h'))) e3
    · exact h
  | wake =>
    dsimp only; split
    · exact hsame (l := []) (by simp) (by simp) rfl
    · exact h
  | drop =>
    dsimp only; split
    · exact ⟨.inr (.inr rfl), fun _ => rfl⟩
    · exact h

theorem where_exec (t : Int) (ops : List (Op α)) : Where (exec t ops) := by
  induction ops using snocInd with
  | nil => exact where_init t
  | snoc l op ih => rw [exec_snoc]; exact where_step (inv_exec t l) ih op

/-- No undefined behaviour arises, so that all of the above applies, if the consumer does nothing but iterate from its
first `begin()` until it drops the generator. -/
theorem C33_safe_if_only_iterating (t : Int) (ops : List (Op α)) (hpol : Polite t ops) : (exec t ops).ub = none := by
  suffices h : (exec t ops).ub = none ∧ ((exec t ops).running = false → (exec t ops).cwait = false → (exec t ops).gen = .fresh ∨ (exec t ops).gen = .gone) from h.1
  induction ops using snocInd with
  | nil => exact ⟨rfl, fun h => by cases h⟩
  | snoc l op ih =>
    have hpl : Polite t l := fun p q e => hpol p (q ++ [op]) (by rw [e]; simp)
    obtain ⟨hu, hq⟩ := ih hpl
    have hi := inv_exec t l
    have hw := where_exec t l
    have hp2 : op = .pause → (∀ n, .next n ∉ (exec t l).log) ∨ .dropped ∈ (exec t l).log := by
      intro e; exact hpol l [] (by rw [e])
    rw [exec_snoc]
    generalize exec t l = s at *
    have hpos := hi.pos hu
    have ha := hi.alive hu
    unfold step
    rw [if_neg (by simp [hu])]
    cases op with
    | emit a =>
      dsimp only; split
      · split <;> exact ⟨hu, hq⟩
      · exact ⟨hu, hq⟩
    | destroyObj => dsimp only; split <;> exact ⟨hu, hq⟩
    | time d => exact ⟨hu, hq⟩
    | deliver =>
      dsimp only; split
      · exact ⟨hu, hq⟩
      rename_i hrun
      split
      · exact ⟨hu, hq⟩
      rename_i a rest hp
      unfold State.slot; dsimp only
      split
      · rename_i haw
        unfold Pos at hpos
        cases hg : s.gen with
        | fresh => rw [hg] at hpos; rw [show s.awaiting = false from hpos.2.2.2.2.2.2.2.1] at haw; cases haw
        | gone => rw [hg] at hpos; rw [show s.awaiting = false from hpos.2.2.2.2.2.2.1] at haw; cases haw
        | yielded =>
          rw [hg] at hpos
          have := hq (by simpa using hrun) hpos.2.2.1
          rw [hg] at this; rcases this with h | h <;> cases h
        | done =>
          rw [hg] at hpos
          have := hq (by simpa using hrun) hpos.2.2.1
          rw [hg] at this; rcases this with h | h <;> cases h
        | waiting t0 =>
          rw [hg] at hpos; simp only [] at hpos
          obtain ⟨a1, a2, a3, a4, a5, a6, a7, a8, a9, a10⟩ := hpos
          unfold State.resumeGen; simp only [a6, List.nil_append]
          unfold State.dequeue State.toConsumer; simp only [a3, if_true, State.emit]
          exact ⟨hu, fun e => by cases e⟩
      · exact ⟨hu, hq⟩
    | fire =>
      dsimp only; split
      · exact ⟨hu, hq⟩
      rename_i hrun
      split
      · exact ⟨hu, hq⟩
      rename_i d hd
      split
      · unfold Pos at hpos
        cases hg : s.gen with
        | fresh => rw [hg] at hpos; have := hpos.2.2.2.1; rw [hd] at this; cases this
        | yielded => rw [hg] at hpos; have := hpos.2.2.2.1; rw [hd] at this; cases this
        | done => rw [hg] at hpos; have := hpos.2.2.2.1; rw [hd] at this; cases this
        | gone => rw [hg] at hpos; have := hpos.2.2.2.1; rw [hd] at this; cases this
        | waiting t0 =>
          rw [hg] at hpos; simp only [] at hpos
          obtain ⟨a1, a2, a3, a4, a5, a6, a7, a8, a9, a10⟩ := hpos
          have key : ∀ k, (State.timeouts k ({ s with timer := none } : State α)).ub = none ∧ ((State.timeouts k ({ s with timer := none } : State α)).running = false →
              (State.timeouts k ({ s with timer := none } : State α)).cwait = false → (State.timeouts k ({ s with timer := none } : State α)).gen = .fresh ∨ (State.timeouts k ({ s with timer := none } : State α)).gen = .gone) := by
            intro k
            cases k with
            | zero => exact ⟨hu, fun _ e => by rw [show (State.timeouts 0 ({ s with timer := none } : State α)).cwait = s.cwait from rfl, a3] at e; cases e⟩
            | succ n =>
              have e : State.timeouts (n + 1) ({ s with timer := none } : State α) = State.timeouts n (({ s with timer := none, conn := false } : State α).dequeue) := by
                conv => lhs; unfold State.timeouts
                rw [if_neg (by simp [hu]), if_neg (by simpa using hrun)]
                unfold State.resumeGen; simp only [hg]
              have e2 : ({ s with timer := none, conn := false } : State α).dequeue = ({ s with timer := none, conn := false, gen := .done, cwait := false, running := true, log := s.log ++ [.got none s.now] } : State α) := by
                unfold State.dequeue State.toConsumer; simp only [a6, a3, if_true, State.emit]
              rw [e, e2, timeouts_running n ({ s with timer := none, conn := false, gen := .done, cwait := false, running := true, log := s.log ++ [.got none s.now] } : State α) rfl hu]
              exact ⟨hu, fun e => by cases e⟩
          have := key s.nconn
          rw [hg] at this; exact this
      · exact ⟨hu, hq⟩
    | next =>
      dsimp only; split
      · rename_i hc
        have hcom : s.pending = 0 := by
          unfold Pos at hpos
          rcases hc.2 with e | e <;> rw [e] at hpos
          · exact hpos.2.2.2.2.1
          · exact hpos.2.2.2.2.1
        have e : ∀ s' : State α, s'.gen = s.gen → s'.resumeGen = s'.awaitQueue := by
          intro s' e; unfold State.resumeGen; rcases hc.2 with h | h <;> rw [e, h]
        rw [e (({ s with running := false, cwait := true } : State α).emit (.next s.now)) rfl]
        have hkey : (((({ s with running := false, cwait := true } : State α).emit (.next s.now)).awaitQueue).ub = none) ∧
            ((((({ s with running := false, cwait := true } : State α).emit (.next s.now)).awaitQueue).running = true) ∨
             ((((({ s with running := false, cwait := true } : State α).emit (.next s.now)).awaitQueue).cwait = true) ∧
              ((({ s with running := false, cwait := true } : State α).emit (.next s.now)).awaitQueue).pending = 0)) := by
          unfold State.awaitQueue
          split
          · unfold State.dequeue State.toConsumer
            split <;> simp [State.emit, hu]
          · dsimp only; split <;> simp [State.emit, hu, hcom]
        generalize (({ s with running := false, cwait := true } : State α).emit (.next s.now)).awaitQueue = s2 at *
        obtain ⟨k1, k2⟩ := hkey
        split
        · rename_i hr; exact ⟨k1, fun e => by rw [hr] at e; cases e⟩
        · rename_i hr
          rcases k2 with k2 | ⟨k2, k3⟩
          · exact absurd k2 hr
          · rw [k3]; exact ⟨k1, fun _ e => by rw [show (State.timeouts 0 s2).cwait = s2.cwait from rfl, k2] at e; cases e⟩
      · exact ⟨hu, hq⟩
    | pause =>
      dsimp only; split
      · have hg : s.gen = .fresh ∨ s.gen = .gone := by
          rcases hp2 rfl with h | h
          · rcases hw.fresh with ⟨n, hn⟩ | h' | h'
            · exact absurd hn (h n)
            · exact .inl h'
            · exact .inr h'
          · exact .inr (hw.gone h)
        have hp : s.pending = 0 := by
          unfold Pos at hpos
          rcases hg with h | h <;> rw [h] at hpos
          · exact hpos.2.2.2.2.1
          · exact hpos.2.2.2.2.1
        rw [hp]; exact ⟨hu, fun _ _ => hg⟩
      · exact ⟨hu, hq⟩
    | wake =>
      dsimp only; split
      · exact ⟨hu, fun e => by cases e⟩
      · exact ⟨hu, hq⟩
    | drop =>
      dsimp only; split
      · exact ⟨hu, fun _ _ => .inr rfl⟩
      · exact ⟨hu, hq⟩

/-! ### C34 -/

/-- The end is reported only to a consumer that asked, and only if the object was already destroyed when it asked, or
if the object still exists and at least the (non-negative) timeout has passed since it asked. -/
theorem C34_end_cause (t : Int) (ops : List (Op α)) (pre post : List (Ev α)) (now : Nat)
    (h : (exec t ops).log = pre ++ .got none now :: post) :
    ∃ (p q : List (Ev α)) (t0 : Nat), pre = p ++ .next t0 :: q ∧ (∀ e ∈ q, isGot e = false) ∧
      ((∃ n, .destroyed n ∈ p) ∨ (0 ≤ (exec t ops).timeout ∧ (t0 : Int) + (exec t ops).timeout ≤ now ∧ ∀ n, .destroyed n ∉ pre)) := by
  have hi := inv_exec t ops
  have hl := hi.legal
  have hok : Spec.ok (Spec.after (exec t ops).timeout pre) (.got none now) := hl pre _ post h
  have hpre : Legal Spec.next Spec.ok { timeout := (exec t ops).timeout } pre := by rw [h] at hl; exact hl.prefix
  generalize (exec t ops).timeout = T at *
  obtain ⟨t0, dead, h1, h2, h3⟩ := hok
  have key : ∀ l : List (Ev α), Legal Spec.next Spec.ok { timeout := T } l → ∀ t0 dead, (Spec.after T l).wait = some (t0, dead) →
      ∃ p q, l = p ++ .next t0 :: q ∧ (∀ e ∈ q, isGot e = false) ∧ dead = !(Spec.after T p).alive := by
    intro l
    induction l using snocInd with
    | nil => intro _ t0 dead e; cases e
    | snoc l e ih =>
      intro hL t0 dead hw
      rw [Spec.after_snoc] at hw
      have ih := ih hL.prefix
      have app : ∀ e : Ev α, isGot e = false → (Spec.after T l).wait = some (t0, dead) → ∃ p q, l ++ [e] = p ++ .next t0 :: q ∧ (∀ e ∈ q, isGot e = false) ∧ dead = !(Spec.after T p).alive := by
        intro e he hw
        obtain ⟨p, q, e1, e2, e3⟩ := ih t0 dead hw
        refine ⟨p, q ++ [e], by rw [e1]; simp, ?_, e3⟩
        intro x hx; rcases List.mem_append.mp hx with hx | hx
        · exact e2 x hx
        · simp at hx; rw [hx]; exact he
      cases e with
      | emitted a n => exact app _ rfl hw
      | destroyed n => exact app _ rfl hw
      | dropped => exact app _ rfl hw
      | next n =>
        simp only [Spec.next, Option.some.injEq, Prod.mk.injEq] at hw
        obtain ⟨rfl, rfl⟩ := hw
        exact ⟨l, [], rfl, by simp, rfl⟩
      | got r n => cases r <;> cases hw
  obtain ⟨p, q, e1, e2, e3⟩ := key pre hpre t0 dead h1
  refine ⟨p, q, t0, e1, e2, ?_⟩
  have hp : Legal Spec.next Spec.ok { timeout := T } p := by rw [e1] at hpre; exact hpre.prefix
  rcases h3 with h3 | ⟨h3, h4, h5⟩
  · left
    rw [h3] at e3
    have := (spec_facts p hp).2.2.2.1.mp (by simpa using e3.symm)
    exact this
  · right
    rw [after_timeout] at h4 h5
    refine ⟨h4, h5, fun n hn => ?_⟩
    have := (spec_facts pre hpre).2.2.2.1.mpr ⟨n, hn⟩
    rw [h3] at this; cases this

/-- The listener's timeout never changes. -/
theorem timeout_const (t : Int) (ops : List (Op α)) : (exec t ops).timeout = t := by
  have hd : ∀ s : State α, s.dequeue.timeout = s.timeout := by
    intro s; unfold State.dequeue; split <;> unfold State.toConsumer <;> split <;> rfl
  have hq : ∀ s : State α, s.awaitQueue.timeout = s.timeout := by
    intro s; unfold State.awaitQueue; split
    · exact hd s
    · dsimp only; split <;> rfl
  have hr : ∀ s : State α, s.resumeGen.timeout = s.timeout := by
    intro s; unfold State.resumeGen; split <;> first | exact hq s | exact hd s | rfl
  have ht : ∀ n (s : State α), (State.timeouts n s).timeout = s.timeout := by
    intro n; induction n with
    | zero => intro s; rfl
    | succ n ih => intro s; unfold State.timeouts; split; rfl; split; rfl; rw [ih, hr]
  induction ops using snocInd with
  | nil => rfl
  | snoc l op ih =>
    rw [exec_snoc]
    generalize exec t l = s at *
    unfold step
    split
    · exact ih
    cases op with
    | emit a => dsimp only; split; split <;> exact ih; exact ih
    | destroyObj => dsimp only; split <;> exact ih
    | time d => exact ih
    | deliver =>
      dsimp only; split; exact ih; split; exact ih
      unfold State.slot; dsimp only; split
      · rw [hr]; exact ih
      · exact ih
    | fire =>
      dsimp only; split; exact ih; split; exact ih; split
      · rw [ht]; exact ih
      · exact ih
    | next =>
      dsimp only; split
      · split
        · rw [hr]; exact ih
        · rw [ht, hr]; exact ih
      · exact ih
    | pause => dsimp only; split; rw [ht]; exact ih; exact ih
    | wake => dsimp only; split <;> exact ih
    | drop => dsimp only; split <;> exact ih

/-- Without a timeout (negative), while the object is not destroyed, the end is never reported. -/
theorem C34_no_timeout_never_ends (t : Int) (ht : t < 0) (ops : List (Op α)) (hd : ∀ n, .destroyed n ∉ (exec t ops).log) (now : Nat) :
    .got none now ∉ (exec t ops).log := by
  intro hm
  obtain ⟨pre, post, h⟩ := List.append_of_mem hm
  obtain ⟨p, q, t0, e1, e2, e3⟩ := C34_end_cause t ops pre post now h
  rw [timeout_const] at e3
  rcases e3 with ⟨n, hn⟩ | ⟨h1, _⟩
  · exact hd n (by rw [h, e1]; simp [hn])
  · omega

/-- A wait that lasted for the timeout without a delivery ends when the event loop next looks at timers: the consumer
is told the end. -/
theorem C34_times_out (t : Int) (ht : 0 ≤ t) (ops : List (Op α)) (hu : (exec t ops).ub = none) (t0 : Nat)
    (hasked : Asked (exec t ops).log t0) (hal : ∀ n, .destroyed n ∉ (exec t ops).log) (hnow : (t0 : Int) + t ≤ (exec t ops).now) :
    (exec t (ops ++ [.fire])).log = (exec t ops).log ++ [.got none (exec t ops).now] ∧ (exec t (ops ++ [.fire])).ub = none := by
  have hi := inv_exec t ops
  have hto := timeout_const t ops
  rw [exec_snoc]
  generalize exec t ops = s at *
  have hgen := asked_gen hi hu t0 hasked
  have hpos := hi.pos hu
  have halive : s.alive = true := by
    have h1 := hi.alive hu
    have h2 := (spec_facts _ hi.legal).2.2.2.1
    cases e : s.alive
    · rw [e] at h1; obtain ⟨n, hn⟩ := h2.mp h1; exact absurd hn (hal n)
    · rfl
  unfold Pos at hpos; rw [hgen] at hpos; simp only [] at hpos
  obtain ⟨a1, a2, a3, a4, a5, a6, a7, a8, a9, a10, a11, a12⟩ := hpos
  obtain ⟨b1, b2⟩ := a11 (by omega) halive
  unfold step
  rw [if_neg (by simp [hu])]
  dsimp only
  rw [if_neg (by simp [a4]), b1]
  dsimp only
  rw [if_pos (by omega)]
  obtain ⟨n, hn⟩ : ∃ n, s.nconn = n + 1 := ⟨s.nconn - 1, by omega⟩
  have key : ∀ k, (State.timeouts (k + 1) ({ s with timer := none } : State α)).log = s.log ++ [.got none s.now] ∧ (State.timeouts (k + 1) ({ s with timer := none } : State α)).ub = none := by
    intro k
    have e : State.timeouts (k + 1) ({ s with timer := none } : State α) = State.timeouts k (({ s with timer := none, conn := false } : State α).dequeue) := by
      conv => lhs; unfold State.timeouts
      rw [if_neg (by simp [hu]), if_neg (by simp [a4])]
      unfold State.resumeGen; simp only [hgen]
    have e2 : ({ s with timer := none, conn := false } : State α).dequeue = ({ s with timer := none, conn := false, gen := .done, cwait := false, running := true, log := s.log ++ [.got none s.now] } : State α) := by
      unfold State.dequeue State.toConsumer; simp only [a6, a3, if_true, State.emit]
    rw [e, e2, timeouts_running k ({ s with timer := none, conn := false, gen := .done, cwait := false, running := true, log := s.log ++ [.got none s.now] } : State α) rfl hu]
    exact ⟨rfl, hu⟩
  have := key n
  rw [← hn] at this
  exact this

/-- **Counterexample to C34**: every wait adds another timeout connection, so a timeout after at least two waits resumes
the finished generator once more if the consumer does not destroy it at once. -/
theorem C34_kept_generator_ub :
    (exec 5 [.next, .emit (1 : Nat), .deliver, .next, .time 5, .fire, .pause]).ub = some .resumeDone := by decide

/-- If the consumer drops the generator as soon as it sees the end, the same history is fine. -/
example : (exec 5 [.next, .emit (1 : Nat), .deliver, .next, .time 5, .fire, .drop, .pause]).ub = none ∧
    (exec 5 [.next, .emit (1 : Nat), .deliver, .next, .time 5, .fire, .drop, .pause]).log =
      [.next 0, .emitted 1 0, .got (some 1) 0, .next 0, .got none 5, .dropped] := by decide

/-- **Counterexample to C34**, destroyed object: if the object is destroyed while the consumer waits and has obtained all
emissions, the listener never ends, not even at its timeout. -/
theorem C34_destroyed_hangs (t : Int) (ops : List (Op α)) (p q post : List (Ev α)) (t0 n : Nat)
    (h : (exec t ops).log = p ++ .next t0 :: (q ++ .destroyed n :: post)) (hq : ∀ e ∈ q, isGot e = false)
    (hall : gots p = emissions (p ++ .next t0 :: q)) : ∀ e ∈ post, isGot e = false := by
  have hl := (inv_exec t ops).legal
  generalize (exec t ops).timeout = T at *
  rw [h, show p ++ Ev.next t0 :: (q ++ Ev.destroyed n :: post) = (p ++ Ev.next t0 :: q) ++ [Ev.destroyed n] ++ post by simp] at hl
  have hl0 := hl.prefix
  have hl1 := hl0.prefix
  have hgots : ∀ l, (∀ e ∈ l, isGot e = false) → gots (p ++ .next t0 :: l) = gots p := by
    intro l hl
    induction l using snocInd with
    | nil => rw [gots_snoc]; simp
    | snoc l e ih =>
      rw [show p ++ Ev.next t0 :: (l ++ [e]) = (p ++ Ev.next t0 :: l) ++ [e] by simp, gots_snoc, ih (fun x hx => hl x (by simp [hx]))]
      have := hl e (by simp)
      cases e with
      | got r m => cases this
      | _ => simp
  obtain ⟨f1, f2, f3, f4, f5⟩ := spec_facts _ hl1
  have hal : (Spec.after T (p ++ .next t0 :: q)).alive = true := hl0 _ _ [] rfl
  have hw : (Spec.after T (p ++ .next t0 :: q)).wait = some (t0, false) := by
    obtain ⟨d, hd⟩ := asked_wait hl1 t0 ⟨p, q, rfl, hq⟩
    -- the object was alive when the consumer asked
    have : ∀ q : List (Ev α), (∀ e ∈ q, isGot e = false) → Legal Spec.next Spec.ok { timeout := T } (p ++ .next t0 :: q) →
        (Spec.after T (p ++ .next t0 :: q)).alive = true → (Spec.after T (p ++ .next t0 :: q)).wait = some (t0, false) := by
      intro q
      induction q using snocInd with
      | nil => intro _ _ h; rw [Spec.after_snoc] at h ⊢; simp only [Spec.next] at h ⊢; rw [h]; rfl
      | snoc q e ih =>
        intro hq hl h
        rw [show p ++ Ev.next t0 :: (q ++ [e]) = (p ++ Ev.next t0 :: q) ++ [e] by simp] at hl h ⊢
        have hok : Spec.ok (Spec.after T (p ++ Ev.next t0 :: q)) e := hl _ e [] rfl
        have hne := hq e (by simp)
        rw [Spec.after_snoc] at h ⊢
        have ih := ih (fun e he => hq e (by simp [he])) hl.prefix
        cases e with
        | got r n => cases hne
        | next n => have h1 := ih h; have := hok.1; rw [h1] at this; cases this
        | emitted a n => exact ih h
        | destroyed n => cases h
        | dropped => exact ih h
    exact this q hq hl1 hal
  have hkey : ∀ l, Legal Spec.next Spec.ok { timeout := T } ((p ++ Ev.next t0 :: q) ++ [Ev.destroyed n] ++ l) →
      (∀ e ∈ l, isGot e = false) ∧ (Spec.after T ((p ++ Ev.next t0 :: q) ++ [Ev.destroyed n] ++ l)).wait = some (t0, false) ∧
      (Spec.after T ((p ++ Ev.next t0 :: q) ++ [Ev.destroyed n] ++ l)).alive = false ∧
      (Spec.after T ((p ++ Ev.next t0 :: q) ++ [Ev.destroyed n] ++ l)).emitted.length = (Spec.after T ((p ++ Ev.next t0 :: q) ++ [Ev.destroyed n] ++ l)).taken := by
    intro l
    induction l using snocInd with
    | nil =>
      intro _
      rw [List.append_nil, Spec.after_snoc]
      refine ⟨by simp, hw, rfl, ?_⟩
      simp only [Spec.next]
      rw [f1, f2, hgots q hq, hall]
    | snoc l e ih =>
      intro hL
      rw [← List.append_assoc] at hL ⊢
      obtain ⟨i1, i2, i3, i4⟩ := ih hL.prefix
      have hok : Spec.ok (Spec.after T ((p ++ Ev.next t0 :: q) ++ [Ev.destroyed n] ++ l)) e := hL _ e [] rfl
      rw [Spec.after_snoc]
      generalize Spec.after T ((p ++ Ev.next t0 :: q) ++ [Ev.destroyed n] ++ l) = S at *
      cases e with
      | emitted a m => have := hok; simp only [Spec.ok] at this; rw [i3] at this; cases this
      | destroyed m => have := hok; simp only [Spec.ok] at this; rw [i3] at this; cases this
      | next m => have := hok.1; rw [i2] at this; cases this
      | dropped => have : S.wait = none := hok; rw [i2] at this; cases this
      | got r m =>
        cases r with
        | some a =>
          have := (List.getElem?_eq_some_iff.mp hok.2.2).1; omega
        | none =>
          obtain ⟨t1, d, k1, k2, k3⟩ := hok
          rw [i2] at k1; cases k1
          rcases k3 with k3 | k3
          · cases k3
          · rw [i3] at k3; cases k3.1
  exact (hkey post hl).1

/-- Concrete cases: emissions while the consumer was busy are not lost and come in order. -/
example : (exec (-1) [.emit (1 : Nat), .emit 2, .pause, .deliver, .deliver, .wake, .next, .next, .next, .emit 3, .deliver]).log =
    [.emitted 1 0, .emitted 2 0, .next 0, .got (some 1) 0, .next 0, .got (some 2) 0, .next 0, .emitted 3 0, .got (some 3) 0] := by decide

example : Polite (α := Nat) 5 [.pause, .emit 1, .deliver, .wake, .next, .next] := by
  intro p q h
  left
  intro n
  have : p = [] := by
    cases p with
    | nil => rfl
    | cons a p => simp at h; rcases p with _ | ⟨b, p⟩ <;> simp at h; rcases p with _ | ⟨b, p⟩ <;> simp at h; rcases p with _ | ⟨b, p⟩ <;> simp at h; rcases p with _ | ⟨b, p⟩ <;> simp at h; rcases p with _ | ⟨b, p⟩ <;> simp at h
  subst this; simp [exec]

example : Asked (exec 5 [.next, .emit (1 : Nat)]).log 0 := ⟨[], [.emitted 1 0], by decide, by simp [isGot]⟩

end QCoro.Listener
