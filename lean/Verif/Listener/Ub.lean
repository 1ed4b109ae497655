import Verif.Listener.Props
/-
C33 and C34: exactly when using a listener is undefined behaviour, in terms of what its consumer does.
-/
set_option linter.unusedSimpArgs false
namespace QCoro.Listener
variable {α : Type}

/-! ### Specification vocabulary -/

/-- The step is a `begin()`/`++` in which the consumer suspends, because there is nothing to return yet. -/
def suspends (s : State α) : Op α → Bool
  | .next => s.running && !(step s .next).running
  | _ => false

/-- How often the consumer suspended in `begin()`/`++` so far. -/
def waitsFrom (s : State α) : List (Op α) → Nat
  | [] => 0
  | op :: r => (suspends s op).toNat + waitsFrom (step s op) r

def waits (t : Int) (ops : List (Op α)) : Nat := waitsFrom { timeout := t } ops

theorem waitsFrom_snoc (s : State α) (ops : List (Op α)) (op : Op α) :
    waitsFrom s (ops ++ [op]) = waitsFrom s ops + (suspends (ops.foldl step s) op).toNat := by
  induction ops generalizing s with
  | nil => simp [waitsFrom]
  | cons o r ih => simp only [List.cons_append, waitsFrom, ih, List.foldl_cons]; omega

theorem waits_snoc (t : Int) (ops : List (Op α)) (op : Op α) :
    waits t (ops ++ [op]) = waits t ops + (suspends (exec t ops) op).toNat := waitsFrom_snoc _ _ _

/-- The consumer was told the end by the timer, after it had suspended at least twice in this listener, and has neither
suspended again nor destroyed the generator since; the object still exists. -/
def KeptAfterTimeout (t : Int) (ops : List (Op α)) : Prop :=
  ∃ p q, ops = p ++ .fire :: q ∧ (exec t p).running = false ∧ (exec t (p ++ [.fire])).running = true ∧ 2 ≤ waits t p ∧
    ∀ op ∈ q, op ≠ .pause ∧ op ≠ .destroyObj ∧ op ≠ .drop

/-! ### One step -/

/-- What undefined behaviour a step causes, in terms of the model's state. -/
def stepUb (s : State α) : Op α → Option Ub
  | .deliver =>
    if s.running = false ∧ s.posted ≠ [] ∧ s.awaiting = true then
      match s.gen with | .yielded => some .spuriousResume | .done => some .resumeDone | _ => none
    else none
  | .pause => if s.running = true ∧ 0 < s.pending then some .resumeDone else none
  | _ => none

structure Eff (s s' : State α) (op : Op α) : Prop where
  ub : s'.ub = stepUb s op
  al : s'.alive = true → s.alive = true
  gone : s'.ub = none → (s'.gen = .gone ↔ s.gen = .gone ∨ (op = .drop ∧ s.running = true))
  aw : s'.ub = none → s'.gen ≠ .gone → s'.awaiting = (s.awaiting || suspends s op)
  nc : s'.ub = none → s'.gen ≠ .gone → s'.alive = true → 0 ≤ s.timeout → s'.nconn = s.nconn + (suspends s op).toNat
  pd : s'.ub = none → (0 < s'.pending ↔ (op = .fire ∧ s.running = false ∧ s'.running = true ∧ 2 ≤ s.nconn) ∨
    (0 < s.pending ∧ op ≠ .pause ∧ op ≠ .destroyObj ∧ op ≠ .drop))
  pr : s'.ub = none → 0 < s'.pending → s'.running = true ∧ s'.alive = true ∧ s'.gen = .done

theorem Eff.of_ub {s s' : State α} {op : Op α} (u : Ub) (h : s'.ub = some u) (h2 : stepUb s op = some u) (ha : s'.alive = s.alive) : Eff s s' op := by
  have hn : s'.ub ≠ none := by rw [h]; simp
  exact ⟨h.trans h2.symm, fun h => ha ▸ h, fun h => absurd h hn, fun h => absurd h hn, fun h => absurd h hn, fun h => absurd h hn, fun h => absurd h hn⟩

theorem eff_step {s : State α} (hi : Inv s) (hu : s.ub = none) (hp : 0 < s.pending → s.running = true ∧ s.alive = true ∧ s.gen = .done) (op : Op α) :
    Eff s (step s op) op := by
  have hpos := hi.pos hu
  have same : ∀ s' : State α, step s op = s' → s'.ub = none → s'.alive = s.alive → s'.gen = s.gen → s'.awaiting = s.awaiting → s'.nconn = s.nconn →
      s'.pending = s.pending → (0 < s.pending → s'.running = true) → suspends s op = false → stepUb s op = none → (op = .drop → s.running = false ∨ s.gen = .gone) →
      (op = .fire → s'.running = s.running) → (op = .pause → s.pending = 0) → (op = .destroyObj → s.alive = false) → Eff s s' op := by
    intro s' _ h1 h2 h3 h4 h5 h6 h7 h8 h9 h10 h11 h12 h13
    refine ⟨by rw [h1, h9], fun h => by rw [← h2]; exact h, fun _ => ?_, fun _ _ => by rw [h4, h8]; simp, fun _ _ _ _ => by rw [h5, h8]; simp, fun _ => ?_, fun _ h => ?_⟩
    · rw [h3]; constructor
      · exact .inl
      · rintro (h | ⟨h, hr⟩)
        · exact h
        · rcases h10 h with h | h
          · rw [hr] at h; cases h
          · exact h
    · rw [h6]; constructor
      · intro h
        refine .inr ⟨h, ?_, ?_, ?_⟩
        · intro e; rw [h12 e] at h; omega
        · intro e; have := (hp h).2.1; rw [h13 e] at this; cases this
        · intro e
          rcases h10 e with h' | h'
          · rw [(hp h).1] at h'; cases h'
          · rw [(hp h).2.2] at h'; cases h'
      · rintro (⟨h, hr, hr', _⟩ | ⟨h, _⟩)
        · rw [h11 h, hr] at hr'; cases hr'
        · exact h
    · rw [h6] at h; rw [h2, h3]; exact ⟨h7 h, (hp h).2⟩
  cases op with
  | emit a =>
    by_cases ha : s.alive = true
    · by_cases hc : s.conn = true
      · have e : step s (.emit a) = { (s.emit (.emitted a s.now)) with posted := s.posted ++ [a] } := by simp [step, hu, ha, hc, State.emit]
        rw [e]; exact same _ e hu rfl rfl rfl rfl rfl (fun h => (hp h).1) rfl rfl (by simp) (by simp) (by simp) (by simp)
      · have e : step s (.emit a) = s.emit (.emitted a s.now) := by simp [step, hu, ha, hc, State.emit]
        rw [e]; exact same _ e hu rfl rfl rfl rfl rfl (fun h => (hp h).1) rfl rfl (by simp) (by simp) (by simp) (by simp)
    · have e : step s (.emit a) = s := by simp [step, hu, ha]
      rw [e]; exact same _ e hu rfl rfl rfl rfl rfl (fun h => (hp h).1) rfl rfl (by simp) (by simp) (by simp) (by simp)
  | destroyObj =>
    by_cases ha : s.alive = true
    · have e : step s (.destroyObj) = ({ s with alive := false, conn := false, nconn := 0, pending := 0 } : State α).emit (.destroyed s.now) := by simp [step, hu, ha]
      rw [e]
      exact ⟨hu, by simp [State.emit], by simp [State.emit], by simp [State.emit, suspends], by simp [State.emit], by simp [State.emit], by simp [State.emit]⟩
    · have e : step s (.destroyObj) = s := by simp [step, hu, ha]
      rw [e]; exact same _ e hu rfl rfl rfl rfl rfl (fun h => (hp h).1) rfl rfl (by simp) (by simp) (by simp) (by simpa using ha)
  | time d =>
    have e : step s (.time d) = { s with now := s.now + d } := by simp [step, hu]
    rw [e]; exact same _ e hu rfl rfl rfl rfl rfl (fun h => (hp h).1) rfl rfl (by simp) (by simp) (by simp) (by simp)
  | wake =>
    by_cases hc : s.running = false ∧ s.cwait = false
    · have e : step s (.wake) = { s with running := true } := by simp [step, hu, hc]
      rw [e]; exact same _ e hu rfl rfl rfl rfl rfl (fun h => rfl) rfl rfl (by simp) (by simp) (by simp) (by simp)
    · have e : step s (.wake) = s := by simp only [step]; rw [if_neg (by simp [hu]), if_neg hc]
      rw [e]; exact same _ e hu rfl rfl rfl rfl rfl (fun h => (hp h).1) rfl rfl (by simp) (by simp) (by simp) (by simp)
  | drop =>
    by_cases hc : s.running = true ∧ s.gen ≠ .gone
    · have e : step s (.drop) = ({ s with gen := .gone, conn := false, posted := [], queue := [], timer := none, nconn := 0, pending := 0, awaiting := false } : State α).emit .dropped := by
        simp only [step]; rw [if_neg (by simp [hu]), if_pos hc]
      rw [e]
      exact ⟨hu, by simp [State.emit], by simp [State.emit, hc.1], by simp [State.emit], by simp [State.emit], by simp [State.emit], by simp [State.emit]⟩
    · have e : step s (.drop) = s := by simp only [step]; rw [if_neg (by simp [hu]), if_neg hc]
      rw [e]; refine same _ e hu rfl rfl rfl rfl rfl (fun h => (hp h).1) rfl rfl ?_ (by simp) (by simp) (by simp)
      intro _
      cases hr : s.running
      · exact .inl rfl
      · right; by_cases hg : s.gen = .gone
        · exact hg
        · exact absurd ⟨hr, hg⟩ hc
  | pause =>
    by_cases hr : s.running = true
    · have e : step s (.pause) = State.timeouts s.pending { s with running := false } := by simp [step, hu, hr]
      rw [e]
      rcases Nat.eq_zero_or_pos s.pending with hpd | hpd
      · rw [hpd]
        refine ⟨by simp [State.timeouts, stepUb, hpd, hu], fun h => h, fun _ => by simp [State.timeouts], fun _ _ => by simp [State.timeouts, suspends],
          fun _ _ _ _ => by simp [State.timeouts, suspends], fun _ => by simp [State.timeouts, hpd], fun _ h => by simp [State.timeouts] at h⟩
      · obtain ⟨n, hn⟩ : ∃ n, s.pending = n + 1 := ⟨s.pending - 1, by omega⟩
        obtain ⟨p, h⟩ := timeouts_done n ({ s with running := false } : State α) rfl hu (hp (by omega)).2.2
        have h' : ∀ m, m = n + 1 → State.timeouts m ({ s with running := false } : State α) = _ := fun m hm => hm ▸ h
        rw [h' _ hn]
        exact Eff.of_ub .resumeDone rfl (by simp [stepUb, hr, hpd]) rfl
    · have e : step s (.pause) = s := by simp [step, hu, hr]
      have hp0 : s.pending = 0 := by
        rcases Nat.eq_zero_or_pos s.pending with h | h
        · exact h
        · exact absurd (hp h).1 hr
      rw [e]; exact same _ e hu rfl rfl rfl rfl rfl (fun h => (hp h).1) rfl (by simp [stepUb, hr]) (by simp) (by simp) (fun _ => hp0) (by simp)
  | deliver =>
    by_cases hr : s.running = true
    · have e : step s (.deliver) = s := by simp [step, hu, hr]
      rw [e]; exact same _ e hu rfl rfl rfl rfl rfl (fun h => (hp h).1) rfl (by simp [stepUb, hr]) (by simp) (by simp) (by simp) (by simp)
    · have hr' : s.running = false := by simpa using hr
      have hp0 : s.pending = 0 := by
        rcases Nat.eq_zero_or_pos s.pending with h | h
        · exact h
        · exact absurd (hp h).1 hr
      cases hq : s.posted with
      | nil =>
        have e : step s (.deliver) = s := by simp [step, hu, hq]
        rw [e]; exact same _ e hu rfl rfl rfl rfl rfl (fun h => (hp h).1) rfl (by simp [stepUb, hq]) (by simp) (by simp) (by simp) (by simp)
      | cons a rest =>
        have e : step s (.deliver) = ({ s with posted := rest } : State α).slot a := by simp [step, hu, hr, hq]
        by_cases ha : s.awaiting = true
        · have e2 : step s (.deliver) = ({ s with posted := rest, timer := none, queue := s.queue ++ [a] } : State α).resumeGen := by
            rw [e]; simp [State.slot, ha]
          rw [e2]
          unfold Pos at hpos
          obtain ⟨g, hg⟩ : ∃ g, s.gen = g := ⟨_, rfl⟩
          cases g with
          | fresh => rw [hg] at hpos; simp only [] at hpos; rw [hpos.2.2.2.2.2.2.2.1] at ha; cases ha
          | gone => rw [hg] at hpos; simp only [] at hpos; rw [hpos.2.2.2.2.2.2.1] at ha; cases ha
          | done =>
            have e3 : ({ s with posted := rest, timer := none, queue := s.queue ++ [a] } : State α).resumeGen =
                ({ s with posted := rest, timer := none, queue := s.queue ++ [a], ub := some .resumeDone } : State α) := by
              unfold State.resumeGen; rw [hg]
            exact e3 ▸ Eff.of_ub .resumeDone rfl (by simp [stepUb, hr', hq, ha, hg]) rfl
          | yielded =>
            rw [hg] at hpos; simp only [] at hpos
            have hcw := hpos.2.2.1
            have h3 : ({ s with posted := rest, timer := none, queue := s.queue ++ [a] } : State α).resumeGen.ub = some .spuriousResume ∧
                ({ s with posted := rest, timer := none, queue := s.queue ++ [a] } : State α).resumeGen.alive = s.alive := by
              have e3 : ({ s with posted := rest, timer := none, queue := s.queue ++ [a] } : State α).resumeGen =
                  ({ s with posted := rest, timer := none, queue := s.queue ++ [a] } : State α).dequeue := by
                unfold State.resumeGen; rw [hg]; simp only [State.awaitQueue]; rw [if_pos (.inr (by simp))]
              rw [e3]
              simp only [State.dequeue]
              cases hqq : s.queue <;> simp [State.toConsumer, hcw]
            exact Eff.of_ub .spuriousResume h3.1 (by simp [stepUb, hr', hq, ha, hg]) h3.2
          | waiting t0 =>
            rw [hg] at hpos; simp only [] at hpos
            obtain ⟨a1, a2, a3, a4, a5, a6, a7, a8, _⟩ := hpos
            have : (({ s with posted := rest, timer := none, queue := s.queue ++ [a] } : State α).resumeGen) =
                ({ s with posted := rest, timer := none, queue := [], gen := .yielded, cwait := false, running := true, log := s.log ++ [.got (some a) s.now] } : State α) := by
              simp [State.resumeGen, hg, State.dequeue, a6, State.toConsumer, a3, State.emit]
            rw [this]
            refine ⟨by simp [stepUb, hg, hu], fun h => h, fun _ => by simp [hg], fun _ _ => by simp [suspends], fun _ _ _ _ => by simp [suspends],
              fun _ => by simp [a8], fun _ h => by simp [a8] at h⟩
        · have e2 : step s (.deliver) = ({ s with posted := rest, timer := none, queue := s.queue ++ [a] } : State α) := by
            rw [e]; simp [State.slot, ha]
          rw [e2]
          exact same _ e2 hu rfl rfl rfl rfl rfl (fun h => (hp h).1) rfl (by simp [stepUb, ha]) (by simp) (by simp) (by simp) (by simp)
  | fire =>
    have idle : step s .fire = s → Eff s (step s .fire) .fire := by
      intro e; rw [e]; exact same _ e hu rfl rfl rfl rfl rfl (fun h => (hp h).1) rfl rfl (by simp) (fun _ => rfl) (by simp) (by simp)
    by_cases hr : s.running = true
    · exact idle (by simp [step, hu, hr])
    have hr' : s.running = false := by simpa using hr
    cases ht : s.timer with
    | none => exact idle (by simp [step, hu, hr, ht])
    | some d =>
      by_cases hd : d ≤ s.now
      · have e : step s .fire = State.timeouts s.nconn { s with timer := none } := by simp [step, hu, hr, ht, hd]
        unfold Pos at hpos
        obtain ⟨g, hg⟩ : ∃ g, s.gen = g := ⟨_, rfl⟩
        cases g with
        | fresh => rw [hg] at hpos; simp only [] at hpos; rw [hpos.2.2.2.1] at ht; cases ht
        | gone => rw [hg] at hpos; simp only [] at hpos; rw [hpos.2.2.2.1] at ht; cases ht
        | done => rw [hg] at hpos; simp only [] at hpos; rw [hpos.2.2.2.1] at ht; cases ht
        | yielded => rw [hg] at hpos; simp only [] at hpos; rw [hpos.2.2.2.1] at ht; cases ht
        | waiting t0 =>
          rw [hg] at hpos; simp only [] at hpos
          obtain ⟨a1, a2, a3, a4, a5, a6, a7, a8, a9, a10, a11, a12⟩ := hpos
          rw [e]
          obtain ⟨nn, hn⟩ : ∃ n, s.nconn = n := ⟨_, rfl⟩
          have htt : ∀ s' : State α, State.timeouts s.nconn s' = State.timeouts nn s' := fun _ => by rw [hn]
          rw [htt]
          cases nn with
          | zero =>
            have e2 : State.timeouts 0 ({ s with timer := none } : State α) = { s with timer := none, pending := 0 } := rfl
            rw [e2]
            exact ⟨by simp [stepUb, hu], fun h => h, fun _ => by simp [hg], fun _ _ => by simp [suspends], fun _ _ _ _ => by simp [suspends, hn],
              fun _ => by simp [a8, hr'], fun _ h => by simp at h⟩
          | succ n =>
            have e2 : State.timeouts (n + 1) ({ s with timer := none } : State α) =
                ({ s with timer := none, conn := false, gen := .done, cwait := false, running := true, log := s.log ++ [.got none s.now], pending := n } : State α) := by
              have e1 : State.timeouts (n + 1) ({ s with timer := none } : State α) = State.timeouts n (({ s with timer := none, conn := false } : State α).dequeue) := by
                conv => lhs; unfold State.timeouts
                rw [if_neg (by simp [hu]), if_neg (by simp [a4])]
                unfold State.resumeGen; simp only [hg]
              have e3 : ({ s with timer := none, conn := false } : State α).dequeue = ({ s with timer := none, conn := false, gen := .done, cwait := false, running := true, log := s.log ++ [.got none s.now] } : State α) := by
                unfold State.dequeue State.toConsumer; simp only [a6, a3, if_true, State.emit]
              rw [e1, e3]
              exact timeouts_running n _ rfl hu
            rw [e2]
            have hal : s.alive = true := by
              cases h : s.alive
              · have := a12 h; omega
              · rfl
            refine ⟨by simp [stepUb, hu], fun h => h, fun _ => by simp [hg], fun _ _ => by simp [suspends], fun _ _ _ _ => by simp [suspends, hn],
              fun _ => ?_, fun _ h => ⟨rfl, hal, rfl⟩⟩
            simp [a8, hr', hn]; omega
      · exact idle (by simp [step, hu, hr, ht, hd])
  | next =>
    by_cases hc : s.running = true ∧ (s.gen = .fresh ∨ s.gen = .yielded)
    · obtain ⟨hr, hg⟩ := hc
      have hp0 : s.pending = 0 := by
        rcases Nat.eq_zero_or_pos s.pending with h | h
        · exact h
        · have := (hp h).2.2; rw [this] at hg; simp at hg
      have hcw : s.cwait = false := by
        unfold Pos at hpos; rcases hg with h | h <;> (rw [h] at hpos; exact hpos.2.2.1)
      have hng : s.gen ≠ .gone := by rcases hg with h | h <;> simp [h]
      have e0 : (({ s with running := false, cwait := true } : State α).emit (.next s.now)).resumeGen = (({ s with running := false, cwait := true } : State α).emit (.next s.now)).awaitQueue := by
        rcases hg with h | h <;> simp [State.resumeGen, State.emit, h]
      have e : step s .next = if ((({ s with running := false, cwait := true } : State α).emit (.next s.now)).awaitQueue).running then (({ s with running := false, cwait := true } : State α).emit (.next s.now)).awaitQueue
          else State.timeouts ((({ s with running := false, cwait := true } : State α).emit (.next s.now)).awaitQueue).pending ((({ s with running := false, cwait := true } : State α).emit (.next s.now)).awaitQueue) := by
        rw [← e0]; simp only [step]; rw [if_neg (by simp [hu]), if_pos ⟨hr, hg⟩]
      by_cases hq : s.alive = false ∨ s.queue ≠ []
      · have e1 : (({ s with running := false, cwait := true } : State α).emit (.next s.now)).awaitQueue = (({ s with running := false, cwait := true } : State α).emit (.next s.now)).dequeue := by
          unfold State.awaitQueue; rw [if_pos (by exact hq)]
        rw [e1] at e
        cases hqq : s.queue with
        | nil =>
          have e2 : (({ s with running := false, cwait := true } : State α).emit (.next s.now)).dequeue =
              ({ s with running := true, cwait := false, gen := .done, log := s.log ++ [.next s.now] ++ [.got none s.now] } : State α) := by
            simp [State.dequeue, State.emit, hqq, State.toConsumer]
          rw [e2, if_pos rfl] at e
          have hsu : suspends s .next = false := by simp [suspends, e]
          rw [e]
          refine ⟨by simp [stepUb, hu], fun h => h, fun _ => by simp [hng], fun _ _ => by simp [hsu], fun _ _ _ _ => by simp [hsu], fun _ => by simp [hp0], fun _ h => by simp [hp0] at h⟩
        | cons a q =>
          have e2 : (({ s with running := false, cwait := true } : State α).emit (.next s.now)).dequeue =
              ({ s with running := true, cwait := false, gen := .yielded, queue := q, log := s.log ++ [.next s.now] ++ [.got (some a) s.now] } : State α) := by
            simp [State.dequeue, State.emit, hqq, State.toConsumer]
          rw [e2, if_pos rfl] at e
          have hsu : suspends s .next = false := by simp [suspends, e]
          rw [e]
          refine ⟨by simp [stepUb, hu], fun h => h, fun _ => by simp [hng], fun _ _ => by simp [hsu], fun _ _ _ _ => by simp [hsu], fun _ => by simp [hp0], fun _ h => by simp [hp0] at h⟩
      · by_cases hto : s.timeout > -1
        · have e1 : (({ s with running := false, cwait := true } : State α).emit (.next s.now)).awaitQueue =
              ({ s with running := false, cwait := true, log := s.log ++ [.next s.now], nconn := s.nconn + 1, timer := some (s.now + s.timeout.toNat), awaiting := true, gen := .waiting s.now } : State α) := by
            unfold State.awaitQueue; rw [if_neg (by exact hq)]; simp [State.emit, hto]
          rw [e1, if_neg (by simp)] at e
          simp only [hp0, State.timeouts] at e
          have hsu : suspends s .next = true := by simp [suspends, e, hr]
          rw [e]
          refine ⟨by simp [stepUb, hu], fun h => h, fun _ => by simp [hng], fun _ _ => by simp [hsu], fun _ _ _ _ => by simp [hsu], fun _ => by simp [hp0], fun _ h => by simp at h⟩
        · have e1 : (({ s with running := false, cwait := true } : State α).emit (.next s.now)).awaitQueue =
              ({ s with running := false, cwait := true, log := s.log ++ [.next s.now], awaiting := true, gen := .waiting s.now } : State α) := by
            unfold State.awaitQueue; rw [if_neg (by exact hq)]; simp [State.emit, hto]
          rw [e1, if_neg (by simp)] at e
          simp only [hp0, State.timeouts] at e
          have hsu : suspends s .next = true := by simp [suspends, e, hr]
          rw [e]
          refine ⟨by simp [stepUb, hu], fun h => h, fun _ => by simp [hng], fun _ _ => by simp [hsu], fun _ _ _ h => absurd h (by omega), fun _ => by simp [hp0], fun _ h => by simp at h⟩
    · have e : step s .next = s := by simp only [step]; rw [if_neg (by simp [hu]), if_neg hc]
      have hsu : suspends s .next = false := by simp [suspends, e]
      rw [e]; exact same _ e hu rfl rfl rfl rfl rfl (fun h => (hp h).1) hsu rfl (by simp) (by simp) (by simp) (by simp)

/-! ### All histories -/

theorem ub_prefix {t : Int} {ops : List (Op α)} {op : Op α} (h : (exec t (ops ++ [op])).ub = none) : (exec t ops).ub = none := by
  rw [exec_snoc] at h
  cases e : (exec t ops).ub with
  | none => rfl
  | some u => rw [show step (exec t ops) op = exec t ops by simp [step, e]] at h; rw [e] at h; cases h

structure K (t : Int) (ops : List (Op α)) (s : State α) : Prop where
  gone : s.gen = .gone ↔ .dropped ∈ s.log
  aw : s.gen ≠ .gone → s.awaiting = decide (0 < waits t ops)
  nc : s.gen ≠ .gone → s.alive = true → 0 ≤ t → s.nconn = waits t ops
  pd : 0 < s.pending ↔ KeptAfterTimeout t ops
  pr : 0 < s.pending → s.running = true ∧ s.alive = true ∧ s.gen = .done

theorem fire_waiting {s : State α} (hi : Inv s) (hu : s.ub = none) (hr : s.running = false) (hr' : (step s .fire).running = true) :
    ∃ t0, s.gen = .waiting t0 ∧ s.alive = true ∧ 0 ≤ s.timeout := by
  have hpos := hi.pos hu
  unfold Pos at hpos
  have hs : step s .fire = match s.timer with | none => s | some d => if d ≤ s.now then State.timeouts s.nconn { s with timer := none } else s := by
    simp only [step]; rw [if_neg (by simp [hu]), if_neg (by simp [hr])]; rfl
  cases ht : s.timer with
  | none => rw [hs, ht] at hr'; simp only [] at hr'; rw [hr] at hr'; cases hr'
  | some d =>
    cases hg : s.gen with
    | waiting t0 =>
      rw [hg] at hpos; simp only [] at hpos
      obtain ⟨a1, a2, a3, a4, a5, a6, a7, a8, a9, a10, a11, a12⟩ := hpos
      refine ⟨t0, rfl, ?_, (a10 d ht).1⟩
      cases h : s.alive
      · rw [hs, ht, a12 h] at hr'
        simp only [State.timeouts] at hr'
        split at hr'
        · rw [hr] at hr'; cases hr'
        · rw [hr] at hr'; cases hr'
      · rfl
    | _ => rw [hg] at hpos; simp only [] at hpos; rw [hpos.2.2.2.1] at ht; cases ht

theorem step_dropped {s : State α} (hu : s.ub = none) (op : Op α) : .dropped ∈ (step s op).log ↔ .dropped ∈ s.log ∨ (op = .drop ∧ s.running = true ∧ s.gen ≠ .gone) := by
  have app : ∀ s' : State α, (∃ l, s'.log = s.log ++ l ∧ .dropped ∉ l) → (.dropped ∈ s'.log ↔ .dropped ∈ s.log) := by
    rintro s' ⟨l, h1, h2⟩; rw [h1]; simp [h2]
  have tm : ∀ n (s' : State α), (∃ l, s'.log = s.log ++ l ∧ .dropped ∉ l) → ∃ l, (State.timeouts n s').log = s.log ++ l ∧ .dropped ∉ l := by
    rintro n s' ⟨l, h1, h2⟩
    obtain ⟨m, h3, h4, _⟩ := timeouts_log n s'
    exact ⟨l ++ m, by rw [h3, h1, List.append_assoc], by simp [h2, h4]⟩
  have rg : ∀ (s' : State α), (∃ l, s'.log = s.log ++ l ∧ .dropped ∉ l) → ∃ l, (State.resumeGen s').log = s.log ++ l ∧ .dropped ∉ l := by
    rintro s' ⟨l, h1, h2⟩
    obtain ⟨m, h3, h4, _⟩ := resumeGen_log s'
    exact ⟨l ++ m, by rw [h3, h1, List.append_assoc], by simp [h2, h4]⟩
  have z : ∃ l, s.log = s.log ++ l ∧ Ev.dropped ∉ l := ⟨[], by simp, by simp⟩
  cases op with
  | emit a =>
    have : Ev.dropped ∈ (step s (.emit a)).log ↔ .dropped ∈ s.log := by
      apply app; simp only [step]; rw [if_neg (by simp [hu])]; split
      · split <;> exact ⟨[.emitted a s.now], rfl, by simp⟩
      · exact z
    rw [this]; simp
  | destroyObj =>
    have : Ev.dropped ∈ (step s (.destroyObj)).log ↔ .dropped ∈ s.log := by
      apply app; simp only [step]; rw [if_neg (by simp [hu])]; split
      · exact ⟨[.destroyed s.now], rfl, by simp⟩
      · exact z
    rw [this]; simp
  | time d => simp [step, hu]
  | wake =>
    have : Ev.dropped ∈ (step s (.wake)).log ↔ .dropped ∈ s.log := by
      apply app; simp only [step]; rw [if_neg (by simp [hu])]; split <;> exact z
    rw [this]; simp
  | deliver =>
    have : Ev.dropped ∈ (step s (.deliver)).log ↔ .dropped ∈ s.log := by
      apply app; simp only [step]; rw [if_neg (by simp [hu])]; split
      · exact z
      · split
        · exact z
        · simp only [State.slot]; split
          · exact rg _ z
          · exact z
    rw [this]; simp
  | fire =>
    have : Ev.dropped ∈ (step s (.fire)).log ↔ .dropped ∈ s.log := by
      apply app; simp only [step]; rw [if_neg (by simp [hu])]; split
      · exact z
      · split
        · exact z
        · split
          · exact tm _ _ z
          · exact z
    rw [this]; simp
  | pause =>
    have : Ev.dropped ∈ (step s (.pause)).log ↔ .dropped ∈ s.log := by
      apply app; simp only [step]; rw [if_neg (by simp [hu])]; split
      · exact tm _ _ z
      · exact z
    rw [this]; simp
  | next =>
    have : Ev.dropped ∈ (step s (.next)).log ↔ .dropped ∈ s.log := by
      apply app; simp only [step]; rw [if_neg (by simp [hu])]; split
      · have := rg (({ s with running := false, cwait := true } : State α).emit (.next s.now)) ⟨[.next s.now], rfl, by simp⟩
        split
        · exact this
        · exact tm _ _ this
      · exact z
    rw [this]; simp
  | drop =>
    simp only [step]; rw [if_neg (by simp [hu])]
    split
    · rename_i h; simp [State.emit, h]
    · rename_i h; constructor
      · exact .inl
      · rintro (h' | ⟨_, h'⟩)
        · exact h'
        · exact absurd h' h

theorem k_exec (t : Int) (ops : List (Op α)) (hu : (exec t ops).ub = none) : K t ops (exec t ops) := by
  induction ops using snocInd with
  | nil =>
    refine ⟨by simp [exec], by simp [exec, waits, waitsFrom], by simp [exec, waits, waitsFrom], ?_, by simp [exec]⟩
    constructor
    · intro h; simp [exec] at h
    · rintro ⟨p, q, h, _⟩; simp at h
  | snoc ops op ih =>
    have hu0 := ub_prefix hu
    have k := ih hu0
    have hi := inv_exec t ops
    have hto := timeout_const t ops
    have hx := hu
    rw [exec_snoc] at hu
    have e := eff_step hi hu0 k.pr op
    have hgone := e.gone hu
    have hd := step_dropped hu0 op
    have hpd := e.pd hu
    rw [exec_snoc]
    refine ⟨?_, ?_, ?_, ?_, e.pr hu⟩
    · rw [hgone, hd, k.gone]
      constructor
      · rintro (h | ⟨h, h2⟩)
        · exact .inl h
        · by_cases hg : (exec t ops).gen = .gone
          · exact .inl (k.gone.1 hg)
          · exact .inr ⟨h, h2, hg⟩
      · rintro (h | ⟨h, h2, _⟩)
        · exact .inl h
        · exact .inr ⟨h, h2⟩
    · intro hg
      rw [e.aw hu hg, k.aw (fun h => hg (hgone.2 (.inl h))), waits_snoc]
      cases suspends (exec t ops) op <;> simp
    · intro hg ha ht
      rw [e.nc hu hg ha (by rw [hto]; exact ht), k.nc (fun h => hg (hgone.2 (.inl h))) (e.al ha) ht, waits_snoc]
    · rw [hpd]
      constructor
      · rintro (⟨rfl, h1, h2, h3⟩ | ⟨h1, h2, h3, h4⟩)
        · obtain ⟨t0, hg, ha, h0⟩ := fire_waiting hi hu0 h1 h2
          have hn := k.nc (by rw [hg]; simp) ha (by rw [← hto]; exact h0)
          exact ⟨ops, [], rfl, h1, by rw [exec_snoc]; exact h2, by omega, by simp⟩
        · obtain ⟨p, q, e1, e2, e3, e4, e5⟩ := k.pd.1 h1
          refine ⟨p, q ++ [op], by simp [e1], e2, e3, e4, ?_⟩
          intro o ho
          rcases List.mem_append.1 ho with h | h
          · exact e5 o h
          · simp at h; subst h; exact ⟨h2, h3, h4⟩
      · rintro ⟨p, q, e1, e2, e3, e4, e5⟩
        rcases List.eq_nil_or_concat q with hq | ⟨q', y, hq⟩
        · subst hq
          obtain ⟨h3, h4⟩ := List.append_inj' (s₁ := ops) (t₁ := [op]) (s₂ := p) (t₂ := [.fire]) (by simpa using e1) rfl
          simp at h4; subst h4; subst h3
          rw [exec_snoc] at e3
          obtain ⟨t0, hg, ha, h0⟩ := fire_waiting hi hu0 e2 e3
          have hn := k.nc (by rw [hg]; simp) ha (by rw [← hto]; exact h0)
          exact .inl ⟨rfl, e2, e3, by omega⟩
        · subst hq
          obtain ⟨h3, h4⟩ := List.append_inj' (s₁ := ops) (t₁ := [op]) (s₂ := p ++ .fire :: q') (t₂ := [y]) (by simpa using e1) rfl
          simp at h4; subst h4
          refine .inr ⟨k.pd.2 ⟨p, q', h3, e2, e3, e4, fun o ho => e5 o (by simp [ho])⟩, ?_⟩
          exact e5 op (by simp)

theorem wait_asked {t : Int} (l : List (Ev α)) (t0 : Nat) (d : Bool) (h : (Spec.after t l).wait = some (t0, d)) : Asked l t0 := by
  induction l using snocInd with
  | nil => simp [Spec.after] at h
  | snoc l e ih =>
    rw [Spec.after_snoc] at h
    have keep : (Spec.after t l).wait = some (t0, d) → isGot e = false → Asked (l ++ [e]) t0 := by
      intro h he
      obtain ⟨p, q, e1, e2⟩ := ih h
      refine ⟨p, q ++ [e], by simp [e1], ?_⟩
      intro x hx; rcases List.mem_append.1 hx with hx | hx
      · exact e2 x hx
      · simp at hx; subst hx; exact he
    cases e with
    | next n => simp [Spec.next] at h; exact ⟨l, [], by rw [h.1], by simp⟩
    | got r n => cases r <;> simp [Spec.next] at h
    | emitted a n => exact keep h rfl
    | destroyed n => exact keep h rfl
    | dropped => exact keep h rfl

/-- **Exactly when delivering an emission is undefined behaviour** (C33, C34).  The event loop delivers an emission; that is
undefined behaviour exactly if the consumer is suspended, but not in this listener's `begin()`/`++`, it has suspended in
one of them before, and it has not destroyed the generator.  (The slot resumes whatever the inner generator last waited
in, `qcorosignal.h:321-323`.)  If the generator has ended it is resumed after its end, otherwise it resumes the consumer at
a place where it waits for something else. -/
theorem C33_ub_iff (t : Int) (ops : List (Op α)) (hu : (exec t ops).ub = none) :
    ((exec t (ops ++ [.deliver])).ub ≠ none ↔ (exec t ops).running = false ∧ (exec t ops).posted ≠ [] ∧ (∀ t0, ¬ Asked (exec t ops).log t0) ∧
      0 < waits t ops ∧ .dropped ∉ (exec t ops).log) ∧
    ((exec t (ops ++ [.deliver])).ub ≠ none → (exec t (ops ++ [.deliver])).ub =
      some (if (Spec.after t (exec t ops).log).ended = true then .resumeDone else .spuriousResume)) := by
  have hi := inv_exec t ops
  have k := k_exec t ops hu
  have e := (eff_step hi hu k.pr .deliver).ub
  have hto := timeout_const t ops
  have hpos := hi.pos hu
  rw [hto] at hpos
  rw [exec_snoc, e]
  have hna : ∀ t0, (exec t ops).gen = .waiting t0 → Asked (exec t ops).log t0 := by
    intro t0 h; unfold Pos at hpos; rw [h] at hpos; exact wait_asked _ _ _ hpos.1
  have haskd : ∀ t0, Asked (exec t ops).log t0 → (exec t ops).gen = .waiting t0 := fun t0 h => asked_gen hi hu t0 h
  have haw := k.aw
  have hg := k.gone
  unfold Pos at hpos
  generalize exec t ops = s at *
  unfold stepUb
  cases hgen : s.gen with
  | waiting t0 => 
    have := hna t0 hgen
    simp only [ite_self, ne_eq, not_true_eq_false, false_iff, false_implies, and_true]
    rintro ⟨_, _, h, _⟩; exact h t0 this
  | fresh =>
    rw [hgen] at hpos haw; simp only [] at hpos
    have h := hpos.2.2.2.2.2.2.2.1
    have := haw (by simp)
    rw [h] at this
    simp at this
    simp [h, this]
  | gone =>
    rw [hgen] at hpos; simp only [] at hpos
    have := hg.1 hgen
    simp [this]
  | yielded =>
    rw [hgen] at hpos haw; simp only [] at hpos
    have h1 : Ev.dropped ∉ s.log := fun h => by have := hg.2 h; rw [hgen] at this; cases this
    have h2 : ∀ t0, ¬ Asked s.log t0 := fun t0 h => by have := haskd t0 h; rw [hgen] at this; cases this
    rw [haw (by simp)]
    simp [h1, h2, hpos.2.1, Nat.pos_iff_ne_zero]
  | done =>
    rw [hgen] at hpos haw; simp only [] at hpos
    have h1 : Ev.dropped ∉ s.log := fun h => by have := hg.2 h; rw [hgen] at this; cases this
    have h2 : ∀ t0, ¬ Asked s.log t0 := fun t0 h => by have := haskd t0 h; rw [hgen] at this; cases this
    rw [haw (by simp)]
    simp [h1, h2, hpos.2.1, Nat.pos_iff_ne_zero]

/-- **Exactly when suspending elsewhere (or ending the consumer) is undefined behaviour** (C34): control then returns to the
event loop, which calls the remaining timeout connections (one per wait, `qcorosignal.h:113-117`) of a generator that has
already ended. -/
theorem C34_ub_iff (t : Int) (ops : List (Op α)) (hu : (exec t ops).ub = none) :
    ((exec t (ops ++ [.pause])).ub ≠ none ↔ KeptAfterTimeout t ops) ∧
    ((exec t (ops ++ [.pause])).ub ≠ none → (exec t (ops ++ [.pause])).ub = some .resumeDone) := by
  have k := k_exec t ops hu
  have e := (eff_step (inv_exec t ops) hu k.pr .pause).ub
  rw [exec_snoc, e, ← k.pd]
  have := k.pr
  simp only [stepUb]
  by_cases h : 0 < (exec t ops).pending
  · simp [h, (this h).1]
  · simp [h]

/-- Nothing else is undefined behaviour: emitting from any thread, destroying the object, timers firing, iterating,
destroying the generator, continuing. -/
theorem C33_no_other_ub (t : Int) (ops : List (Op α)) (op : Op α) (hu : (exec t ops).ub = none) (h : op ≠ .deliver ∧ op ≠ .pause) :
    (exec t (ops ++ [op])).ub = none := by
  have k := k_exec t ops hu
  have e := (eff_step (inv_exec t ops) hu k.pr op).ub
  rw [exec_snoc, e]
  cases op <;> simp_all [stepUb]

/-! ### Concrete cases -/

-- the consumer has waited once, then suspends elsewhere, an emission is pending
example : let s := exec (-1) [.next, .emit (1 : Nat), .deliver, .pause, .emit 2]
    s.ub = none ∧ s.running = false ∧ s.posted ≠ [] ∧ 0 < waits (-1) [.next, .emit (1 : Nat), .deliver, .pause, .emit 2] ∧ .dropped ∉ s.log ∧
    gots s.log = [1] := by decide
-- a consumer that never had to suspend in begin()/++ may suspend elsewhere
example : waits (-1) [.emit (1 : Nat), .pause, .deliver, .wake, .next, .pause, .emit 2] = 0 ∧
    (exec (-1) [.emit (1 : Nat), .pause, .deliver, .wake, .next, .pause, .emit 2, .deliver, .wake, .next]).ub = none := by decide
-- the timeout after two waits
example : KeptAfterTimeout 5 [.next, .emit (1 : Nat), .deliver, .next, .time 5, .fire] :=
  ⟨[.next, .emit (1 : Nat), .deliver, .next, .time 5], [], rfl, by decide, by decide, by decide, by simp⟩

end QCoro.Listener
