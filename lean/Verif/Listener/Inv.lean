import Verif.Listener.Model
/- Specification of a signal listener over observable events, and the refinement proof. -/
set_option linter.unusedSimpArgs false
namespace QCoro.Listener
variable {α : Type}

/-- What the user of a listener knows.  `wait`: the consumer asked for a value at that time and has not got an answer;
the flag tells whether the object was already destroyed then. -/
structure Spec (α : Type) where
  timeout : Int
  alive : Bool := true
  emitted : List α := []      -- all emissions since the listener was created
  taken : Nat := 0            -- values handed out
  wait : Option (Nat × Bool) := none
  ended : Bool := false       -- the end was reported, or the generator dropped
  now : Nat := 0

def Spec.next (S : Spec α) : Ev α → Spec α
  | .emitted a _ => { S with emitted := S.emitted ++ [a] }
  | .destroyed _ => { S with alive := false }
  | .next t => { S with wait := some (t, !S.alive) }
  | .got (some _) _ => { S with wait := none, taken := S.taken + 1 }
  | .got none _ => { S with wait := none, ended := true }
  | .dropped => { S with ended := true }

/-- Allowed events.  A value handed out is the oldest emission not handed out yet; the end is only reported when the
object was gone when the consumer asked, or when the object is there and the timeout has elapsed since the consumer asked. -/
def Spec.ok (S : Spec α) : Ev α → Prop
  | .emitted _ _ => S.alive = true
  | .destroyed _ => S.alive = true
  | .next _ => S.wait = none ∧ S.ended = false
  | .got (some a) _ => S.wait.isSome ∧ S.ended = false ∧ S.emitted[S.taken]? = some a
  | .got none now => ∃ t0 dead, S.wait = some (t0, dead) ∧ S.ended = false ∧
      (dead = true ∨ (S.alive = true ∧ 0 ≤ S.timeout ∧ (t0 : Int) + S.timeout ≤ now))
  | .dropped => S.wait = none

def Spec.after (t : Int) (l : List (Ev α)) : Spec α := l.foldl Spec.next { timeout := t }

theorem Spec.after_snoc (t : Int) (l : List (Ev α)) (e : Ev α) : Spec.after t (l ++ [e]) = (Spec.after t l).next e := by
  simp [Spec.after]

theorem after_timeout (t : Int) (l : List (Ev α)) : (Spec.after t l).timeout = t := by
  induction l using snocInd with
  | nil => rfl
  | snoc l e ih => rw [Spec.after_snoc]; cases e <;> try exact ih
                   rename_i r _; cases r <;> exact ih

/-- The pending answer and the queues, by position of the generator. -/
def Pos (s : State α) (S : Spec α) : Prop :=
  match s.gen with
  | .fresh => S.wait = none ∧ S.ended = false ∧ s.cwait = false ∧ s.timer = none ∧ s.pending = 0 ∧ s.conn = s.alive ∧
      S.emitted.drop S.taken = s.queue ++ s.posted ∧ s.awaiting = false ∧ s.nconn = 0
  | .waiting t0 => S.wait = some (t0, false) ∧ S.ended = false ∧ s.cwait = true ∧ s.running = false ∧ s.awaiting = true ∧ s.queue = [] ∧
      s.conn = s.alive ∧ s.pending = 0 ∧ S.emitted.drop S.taken = s.posted ∧
      (∀ d, s.timer = some d → 0 ≤ s.timeout ∧ d = t0 + s.timeout.toNat) ∧
      (0 ≤ s.timeout → s.alive = true → s.timer = some (t0 + s.timeout.toNat) ∧ 0 < s.nconn) ∧ (s.alive = false → s.nconn = 0)
  | .yielded => S.wait = none ∧ S.ended = false ∧ s.cwait = false ∧ s.timer = none ∧ s.pending = 0 ∧ s.conn = s.alive ∧
      S.emitted.drop S.taken = s.queue ++ s.posted
  | .done => S.wait = none ∧ S.ended = true ∧ s.cwait = false ∧ s.timer = none ∧ (s.running = false → s.pending = 0)
  | .gone => S.wait = none ∧ S.ended = true ∧ s.cwait = false ∧ s.timer = none ∧ s.pending = 0 ∧ s.posted = [] ∧ s.awaiting = false ∧ s.conn = false

structure Inv (s : State α) : Prop where
  legal : Legal Spec.next Spec.ok { timeout := s.timeout } s.log
  alive : s.ub = none → (Spec.after s.timeout s.log).alive = s.alive
  pos : s.ub = none → Pos s (Spec.after s.timeout s.log)

theorem drop_cons {l : List α} {n : Nat} {a : α} {q : List α} (h : l.drop n = a :: q) : l[n]? = some a ∧ l.drop (n + 1) = q := by
  constructor
  · have := List.getElem?_drop (xs := l) (i := n) (j := 0)
    rw [h] at this; simpa using this.symm
  · have : l.drop (n + 1) = (l.drop n).drop 1 := by rw [List.drop_drop]
    rw [this, h]; rfl

theorem drop_append_one {l : List α} {n : Nat} {m : List α} {a : α} (h : l.drop n = m) (hn : n ≤ l.length) : (l ++ [a]).drop n = m ++ [a] := by
  rw [List.drop_append_of_le_length hn, h]

/-- Values handed out never exceed emissions. -/
theorem taken_le {t : Int} {l : List (Ev α)} (h : Legal Spec.next Spec.ok { timeout := t } l) :
    (Spec.after t l).taken ≤ (Spec.after t l).emitted.length := by
  induction l using snocInd with
  | nil => simp [Spec.after]
  | snoc l e ih =>
    have ih := ih h.prefix
    have hok : Spec.ok (Spec.after t l) e := h l e [] rfl
    rw [Spec.after_snoc]
    generalize Spec.after t l = S at *
    cases e with
    | emitted a n => simp [Spec.next]; omega
    | destroyed n => exact ih
    | next n => exact ih
    | dropped => exact ih
    | got r n =>
      cases r with
      | none => exact ih
      | some a =>
        obtain ⟨_, _, h3⟩ := hok
        have := (List.getElem?_eq_some_iff.mp h3).1
        simp [Spec.next]; omega

/-- Facts needed by `dequeue`: the consumer is waiting, and the queue is the front of what was not handed out. -/
theorem inv_dequeue {s : State α} (hl : Legal Spec.next Spec.ok { timeout := s.timeout } s.log) (hu : s.ub = none)
    (ha : (Spec.after s.timeout s.log).alive = s.alive) (hc : s.cwait = true) (hp : s.pending = 0) (ht : s.timer = none)
    (hw : (Spec.after s.timeout s.log).wait.isSome = true) (hne : (Spec.after s.timeout s.log).ended = false)
    (hq : (Spec.after s.timeout s.log).emitted.drop (Spec.after s.timeout s.log).taken = s.queue ++ s.posted)
    (hconn : s.queue ≠ [] → s.conn = s.alive)
    (hnone : s.queue = [] → Spec.ok (Spec.after s.timeout s.log) (.got none s.now)) :
    Inv s.dequeue ∧ s.dequeue.ub = none ∧ s.dequeue.running = true ∧ s.dequeue.pending = 0 := by
  unfold State.dequeue
  split
  · rename_i he
    unfold State.toConsumer
    rw [if_pos hc]
    refine ⟨⟨?_, ?_, ?_⟩, hu, rfl, hp⟩
    · exact hl.snoc (hnone he)
    · intro _; show (Spec.after s.timeout (s.log ++ _)).alive = _; rw [Spec.after_snoc]; exact ha
    · intro _; show Pos _ (Spec.after s.timeout (s.log ++ _)); rw [Spec.after_snoc]
      exact ⟨rfl, rfl, rfl, ht, fun h => by cases h⟩
  · rename_i a q he
    unfold State.toConsumer
    rw [if_pos hc]
    rw [he] at hq
    obtain ⟨h1, h2⟩ := drop_cons (by simpa using hq)
    refine ⟨⟨?_, ?_, ?_⟩, hu, rfl, hp⟩
    · exact hl.snoc ⟨hw, hne, h1⟩
    · intro _; show (Spec.after s.timeout (s.log ++ _)).alive = _; rw [Spec.after_snoc]; exact ha
    · intro _; show Pos _ (Spec.after s.timeout (s.log ++ _)); rw [Spec.after_snoc]
      exact ⟨rfl, hne, rfl, ht, hp, hconn (by rw [he]; simp), h2⟩

theorem timeouts_running (n : Nat) (s : State α) (hr : s.running = true) (hu : s.ub = none) :
    State.timeouts n s = { s with pending := n } := by
  cases n with
  | zero => rfl
  | succ n => unfold State.timeouts; simp [hu, hr]

theorem timeouts_done (n : Nat) (s : State α) (hr : s.running = false) (hu : s.ub = none) (hg : s.gen = .done) :
    ∃ p, State.timeouts (n + 1) s = { s with conn := false, ub := some .resumeDone, pending := p } := by
  unfold State.timeouts
  rw [if_neg (by simp [hu]), if_neg (by simp [hr])]
  have : ({ s with conn := false } : State α).resumeGen = { s with conn := false, ub := some .resumeDone } := by
    unfold State.resumeGen; simp only [hg]
  rw [this]
  cases n with
  | zero => exact ⟨0, by simp [State.timeouts, hr]⟩
  | succ n => exact ⟨s.pending, by unfold State.timeouts; simp [hr]⟩

/-- The generator proceeds to the queue while the consumer is waiting (after `begin()`/`++`). -/
theorem inv_awaitQueue {s : State α} (hl : Legal Spec.next Spec.ok { timeout := s.timeout } s.log) (hu : s.ub = none)
    (ha : (Spec.after s.timeout s.log).alive = s.alive) (hc : s.cwait = true) (hr : s.running = false) (hp : s.pending = 0) (ht : s.timer = none)
    (hw : (Spec.after s.timeout s.log).wait = some (s.now, !s.alive)) (hne : (Spec.after s.timeout s.log).ended = false)
    (hq : (Spec.after s.timeout s.log).emitted.drop (Spec.after s.timeout s.log).taken = s.queue ++ s.posted)
    (hconn : s.conn = s.alive) :
    Inv s.awaitQueue ∧ s.awaitQueue.ub = none ∧ s.awaitQueue.pending = 0 := by
  unfold State.awaitQueue
  split
  · rename_i hc2
    obtain ⟨h1, h2, _, h3⟩ := inv_dequeue hl hu ha hc hp ht (by rw [hw]; rfl) hne hq (fun _ => hconn) (by
      intro he
      rcases hc2 with h | h
      · exact ⟨s.now, true, by rw [hw, h]; rfl, hne, .inl rfl⟩
      · exact absurd he h)
    exact ⟨h1, h2, h3⟩
  · rename_i hc2
    have hal : s.alive = true := by
      cases h : s.alive
      · exact absurd (.inl h) hc2
      · rfl
    have hqe : s.queue = [] := by
      cases h : s.queue
      · rfl
      · exact absurd (.inr (by rw [h]; simp)) hc2
    rw [hqe] at hq
    dsimp only
    by_cases hto : s.timeout > -1
    · rw [if_pos hto]
      refine ⟨⟨hl, fun _ => ha, fun _ => ?_⟩, hu, hp⟩
      refine ⟨by rw [hw, hal]; rfl, hne, hc, hr, rfl, hqe, hconn, hp, by simpa using hq, ?_, ?_, ?_⟩
      · intro d hd; cases hd; exact ⟨by show 0 ≤ s.timeout; omega, rfl⟩
      · intro _ _; exact ⟨rfl, by show 0 < s.nconn + 1; omega⟩
      · intro h; rw [show s.alive = false from h] at hal; cases hal
    · rw [if_neg hto]
      refine ⟨⟨hl, fun _ => ha, fun _ => ?_⟩, hu, hp⟩
      refine ⟨by rw [hw, hal]; rfl, hne, hc, hr, rfl, hqe, hconn, hp, by simpa using hq, ?_, ?_, ?_⟩
      · intro d hd; rw [show s.timer = some d from hd] at ht; cases ht
      · intro h; exact absurd (show s.timeout > -1 from by have : 0 ≤ s.timeout := h; omega) hto
      · intro h; rw [show s.alive = false from h] at hal; cases hal

/-- Undefined behaviour leaves the log as it was. -/
theorem inv_ub {s s' : State α} (h : Inv s) (hlog : s'.log = s.log) (ht : s'.timeout = s.timeout) (hu : s'.ub ≠ none) : Inv s' :=
  ⟨by rw [hlog, ht]; exact h.legal, fun e => absurd e hu, fun e => absurd e hu⟩

theorem inv_step {s : State α} (h : Inv s) (op : Op α) : Inv (step s op) := by
  unfold step
  split
  · exact h
  rename_i hub
  have hu : s.ub = none := by simpa using hub
  have ha := h.alive hu
  have hpos := h.pos hu
  have hle := taken_le h.legal
  cases op with
  | emit a =>
    dsimp only
    split
    · rename_i hal
      have hl : Legal Spec.next Spec.ok { timeout := s.timeout } (s.log ++ [Ev.emitted a s.now]) :=
        h.legal.snoc (by show (Spec.after s.timeout s.log).alive = true; rw [ha]; exact hal)
      have key : ∀ p, (s.conn = true → p = s.posted ++ [a]) → (s.conn = false → p = s.posted) → (s.gen = .gone → p = []) →
          Inv ({ s.emit (.emitted a s.now) with posted := p } : State α) := by
        intro p hp1 hp2 hp3
        refine ⟨hl, ?_, ?_⟩
        · intro _; show (Spec.after s.timeout (s.log ++ _)).alive = _; rw [Spec.after_snoc]; exact ha
        · intro _; show Pos _ (Spec.after s.timeout (s.log ++ _)); rw [Spec.after_snoc]
          unfold Pos at hpos ⊢
          simp only [State.emit]
          cases hg : s.gen with
          | fresh =>
            rw [hg] at hpos; simp only [] at hpos ⊢
            obtain ⟨a1, a2, a3, a4, a5, a6, a7, a8, a9⟩ := hpos
            refine ⟨a1, a2, a3, a4, a5, a6, ?_, a8, a9⟩
            rw [hp1 (by rw [a6, hal])]
            simp only [Spec.next]
            rw [drop_append_one a7 hle]; simp
          | waiting t0 =>
            rw [hg] at hpos; simp only [] at hpos ⊢
            obtain ⟨a1, a2, a3, a4, a5, a6, a7, a8, a9, a10⟩ := hpos
            refine ⟨a1, a2, a3, a4, a5, a6, a7, a8, ?_, a10⟩
            rw [hp1 (by rw [a7, hal])]
            simp only [Spec.next]
            rw [drop_append_one a9 hle]
          | yielded =>
            rw [hg] at hpos; simp only [] at hpos ⊢
            obtain ⟨a1, a2, a3, a4, a5, a6, a7⟩ := hpos
            refine ⟨a1, a2, a3, a4, a5, a6, ?_⟩
            rw [hp1 (by rw [a6, hal])]
            simp only [Spec.next]
            rw [drop_append_one a7 hle]; simp
          | done => rw [hg] at hpos; exact hpos
          | gone =>
            rw [hg] at hpos; simp only [] at hpos ⊢
            obtain ⟨a1, a2, a3, a4, a5, a6, a7⟩ := hpos
            exact ⟨a1, a2, a3, a4, a5, hp3 hg, a7⟩
      by_cases hc : s.conn = true
      · rw [if_pos (show (s.emit (.emitted a s.now)).conn = true from hc)]
        have hgg : s.gen ≠ .gone := by
          intro hg; unfold Pos at hpos; rw [hg] at hpos; rw [hpos.2.2.2.2.2.2.2] at hc; cases hc
        exact key (s.posted ++ [a]) (fun _ => rfl) (fun e => by rw [hc] at e; cases e) (fun e => absurd e hgg)
      · rw [if_neg (show ¬ (s.emit (.emitted a s.now)).conn = true from hc)]
        refine key s.posted (fun e => absurd e hc) (fun _ => rfl) ?_
        intro hg; unfold Pos at hpos; rw [hg] at hpos; exact hpos.2.2.2.2.2.1
    · exact h
  | destroyObj =>
    dsimp only
    split
    · rename_i hal
      refine ⟨h.legal.snoc (by show (Spec.after s.timeout s.log).alive = true; rw [ha]; exact hal), ?_, ?_⟩
      · intro _; show (Spec.after s.timeout (s.log ++ _)).alive = _; rw [Spec.after_snoc]; rfl
      · intro _; show Pos _ (Spec.after s.timeout (s.log ++ _)); rw [Spec.after_snoc]
        unfold Pos at hpos ⊢
        simp only [State.emit]
        cases hg : s.gen with
        | fresh => rw [hg] at hpos; simp only [] at hpos ⊢; obtain ⟨a1, a2, a3, a4, a5, a6, a7, a8, a9⟩ := hpos; simp_all [Spec.next]
        | waiting t0 =>
          rw [hg] at hpos; simp only [] at hpos ⊢
          obtain ⟨a1, a2, a3, a4, a5, a6, a7, a8, a9, a10, a11, a12⟩ := hpos
          exact ⟨a1, a2, a3, a4, a5, a6, trivial, trivial, a9, a10, by simp, by simp⟩
        | yielded => rw [hg] at hpos; simp only [] at hpos ⊢; obtain ⟨a1, a2, a3, a4, a5, a6, a7⟩ := hpos; simp_all [Spec.next]
        | done => rw [hg] at hpos; simp only [] at hpos ⊢; obtain ⟨a1, a2, a3, a4, a5⟩ := hpos; simp_all [Spec.next]
        | gone => rw [hg] at hpos; simp only [] at hpos ⊢; obtain ⟨a1, a2, a3, a4, a5, a6, a7⟩ := hpos; simp_all [Spec.next]
    · exact h
  | time d => exact ⟨h.legal, h.alive, h.pos⟩
  | deliver =>
    dsimp only
    split
    · exact h
    rename_i hrun
    have hrun : s.running = false := by simpa using hrun
    split
    · exact h
    rename_i a rest hpo
    unfold State.slot
    dsimp only
    cases hg : s.gen with
    | fresh =>
      unfold Pos at hpos; rw [hg] at hpos; simp only [] at hpos
      obtain ⟨a1, a2, a3, a4, a5, a6, a7, a8, a9⟩ := hpos
      rw [if_neg (by simp [a8])]
      refine ⟨h.legal, fun _ => ha, fun _ => ?_⟩
      unfold Pos; simp only [hg]
      exact ⟨a1, a2, a3, trivial, a5, a6, by rw [a7, hpo]; simp, a8, a9⟩
    | waiting t0 =>
      unfold Pos at hpos; rw [hg] at hpos; simp only [] at hpos
      obtain ⟨a1, a2, a3, a4, a5, a6, a7, a8, a9, a10, a11, a12⟩ := hpos
      rw [if_pos (by simpa using a5)]
      unfold State.resumeGen
      simp only [hg]
      exact (inv_dequeue (s := { s with posted := rest, timer := none, queue := s.queue ++ [a] }) h.legal hu ha a3 a8 rfl (by rw [a1]; rfl) a2 (by rw [a9, hpo, a6]; rfl) (fun _ => a7) (fun e => by simp [a6] at e)).1
    | yielded =>
      unfold Pos at hpos; rw [hg] at hpos; simp only [] at hpos
      obtain ⟨a1, a2, a3, a4, a5, a6, a7⟩ := hpos
      by_cases haw : s.awaiting = true
      · rw [if_pos haw]
        refine inv_ub h ?_ ?_ ?_ <;> (unfold State.resumeGen; simp only [hg]; unfold State.awaitQueue; rw [if_pos (.inr (by simp))]; unfold State.dequeue; cases hq : s.queue <;> simp [State.toConsumer, a3, hq])
      · rw [if_neg haw]
        refine ⟨h.legal, fun _ => ha, fun _ => ?_⟩
        unfold Pos; simp only [hg]
        exact ⟨a1, a2, a3, trivial, a5, a6, by rw [a7, hpo]; simp⟩
    | done =>
      unfold Pos at hpos; rw [hg] at hpos; simp only [] at hpos
      obtain ⟨a1, a2, a3, a4, a5⟩ := hpos
      by_cases haw : s.awaiting = true
      · rw [if_pos haw]
        refine inv_ub h ?_ ?_ ?_ <;> (unfold State.resumeGen; simp only [hg]) <;> simp
      · rw [if_neg haw]
        refine ⟨h.legal, fun _ => ha, fun _ => ?_⟩
        unfold Pos; simp only [hg]
        exact ⟨a1, a2, a3, trivial, a5⟩
    | gone =>
      unfold Pos at hpos; rw [hg] at hpos; simp only [] at hpos
      rw [hpo] at hpos; exact absurd hpos.2.2.2.2.2.1 (by simp)
  | fire =>
    dsimp only
    split
    · exact h
    rename_i hrun
    have hrun : s.running = false := by simpa using hrun
    split
    · exact h
    rename_i d hd
    split
    · rename_i hdue
      have hgw : ∃ t0, s.gen = .waiting t0 := by
        unfold Pos at hpos
        cases hg : s.gen with
        | waiting t0 => exact ⟨t0, rfl⟩
        | fresh => rw [hg] at hpos; simp only [hd] at hpos; exact absurd hpos.2.2.2.1 (by simp)
        | yielded => rw [hg] at hpos; simp only [hd] at hpos; exact absurd hpos.2.2.2.1 (by simp)
        | done => rw [hg] at hpos; simp only [hd] at hpos; exact absurd hpos.2.2.2.1 (by simp)
        | gone => rw [hg] at hpos; simp only [hd] at hpos; exact absurd hpos.2.2.2.1 (by simp)
      obtain ⟨t0, hg⟩ := hgw
      unfold Pos at hpos; rw [hg] at hpos; simp only [] at hpos
      obtain ⟨a1, a2, a3, a4, a5, a6, a7, a8, a9, a10, a11, a12⟩ := hpos
      obtain ⟨b1, b2⟩ := a10 d hd
      have key : ∀ k, k = s.nconn → Inv (State.timeouts k { s with timer := none }) := by
       intro k hn
       cases k with
       | zero =>
         have hal : s.alive = false := by
           cases e : s.alive
           · rfl
           · have := (a11 b1 e).2; omega
         refine ⟨h.legal, fun _ => ha, fun _ => ?_⟩
         unfold Pos State.timeouts; simp only [hg]
         exact ⟨a1, a2, a3, a4, a5, a6, a7, trivial, a9, fun _ e => by simp at e, by simp [hal], fun _ => hn.symm⟩
       | succ n =>
         have hal : s.alive = true := by
           cases e : s.alive
           · have := a12 e; omega
           · rfl
         unfold State.timeouts
         rw [if_neg (by simp [hu]), if_neg (by simp [hrun])]
         have e : ({ ({ s with timer := none } : State α) with conn := false } : State α).resumeGen = ({ s with timer := none, conn := false } : State α).dequeue := by
           unfold State.resumeGen; simp only [hg]
         have hq0 : (Spec.after s.timeout s.log).emitted.drop (Spec.after s.timeout s.log).taken = s.queue ++ s.posted := by rw [a6, a9]; rfl
         obtain ⟨r1, r2, r3, r4⟩ := inv_dequeue (s := { s with timer := none, conn := false }) h.legal hu ha a3 a8 rfl (by show (Spec.after s.timeout s.log).wait.isSome = true; rw [a1]; rfl) a2 hq0 (fun e => absurd a6 e)
           (fun _ => ⟨t0, false, a1, a2, .inr ⟨by rw [← hal]; exact ha, by rw [after_timeout]; exact b1, by
             show ((t0 : Nat) : Int) + (Spec.after s.timeout s.log).timeout ≤ (s.now : Int)
             rw [after_timeout]; omega⟩⟩)
         show Inv (State.timeouts n (({ ({ s with timer := none } : State α) with conn := false } : State α).resumeGen))
         rw [e, timeouts_running n _ r3 r2]
         refine ⟨r1.legal, fun _ => r1.alive r2, fun _ => ?_⟩
         have rp := r1.pos r2
         have hgd : (({ s with timer := none, conn := false } : State α).dequeue).gen = .done := by
           unfold State.dequeue; simp only [a6]; unfold State.toConsumer; simp only [a3, if_true]; rfl
         unfold Pos at rp ⊢
         simp only [hgd] at rp ⊢
         exact ⟨rp.1, rp.2.1, rp.2.2.1, rp.2.2.2.1, fun e => by rw [r3] at e; cases e⟩
      exact key _ rfl
    · exact h
  | next =>
    dsimp only
    split
    · rename_i hc
      obtain ⟨hrun, hg⟩ := hc
      have hcom : (Spec.after s.timeout s.log).wait = none ∧ (Spec.after s.timeout s.log).ended = false ∧ s.timer = none ∧ s.pending = 0 ∧ s.conn = s.alive ∧
          (Spec.after s.timeout s.log).emitted.drop (Spec.after s.timeout s.log).taken = s.queue ++ s.posted := by
        unfold Pos at hpos
        rcases hg with hg | hg <;> rw [hg] at hpos <;> simp only [] at hpos
        · exact ⟨hpos.1, hpos.2.1, hpos.2.2.2.1, hpos.2.2.2.2.1, hpos.2.2.2.2.2.1, hpos.2.2.2.2.2.2.1⟩
        · exact ⟨hpos.1, hpos.2.1, hpos.2.2.2.1, hpos.2.2.2.2.1, hpos.2.2.2.2.2.1, hpos.2.2.2.2.2.2⟩
      obtain ⟨c1, c2, c3, c4, c5, c6⟩ := hcom
      have hres : ∀ s' : State α, s'.gen = s.gen → s'.resumeGen = s'.awaitQueue := by
        intro s' e; unfold State.resumeGen; rcases hg with hg | hg <;> rw [e, hg]
      rw [hres (({ s with running := false, cwait := true } : State α).emit (.next s.now)) rfl]
      obtain ⟨r1, r2, r3⟩ := inv_awaitQueue (s := ({ s with running := false, cwait := true } : State α).emit (.next s.now))
        (h.legal.snoc ⟨c1, c2⟩) hu (by show (Spec.after s.timeout (s.log ++ _)).alive = _; rw [Spec.after_snoc]; exact ha) rfl rfl c4 c3
        (by show (Spec.after s.timeout (s.log ++ _)).wait = _; rw [Spec.after_snoc]; simp [Spec.next, ha, State.emit])
        (by show (Spec.after s.timeout (s.log ++ _)).ended = _; rw [Spec.after_snoc]; exact c2)
        (by show (Spec.after s.timeout (s.log ++ _)).emitted.drop (Spec.after s.timeout (s.log ++ _)).taken = _; rw [Spec.after_snoc]; exact c6) c5
      generalize hs2 : (({ s with running := false, cwait := true } : State α).emit (.next s.now)).awaitQueue = s2 at *
      split
      · exact r1
      · rw [r3]
        have : State.timeouts 0 s2 = s2 := by
          show ({ s2 with pending := 0 } : State α) = s2
          rw [← r3]
        rw [this]; exact r1
    · exact h
  | pause =>
    dsimp only
    split
    · rename_i hrun
      cases hg : s.gen with
      | done =>
        unfold Pos at hpos; rw [hg] at hpos; simp only [] at hpos
        obtain ⟨a1, a2, a3, a4, a5⟩ := hpos
        have key : ∀ k, Inv (State.timeouts k ({ s with running := false } : State α)) := by
          intro k
          cases k with
          | zero =>
            refine ⟨h.legal, fun _ => ha, fun _ => ?_⟩
            unfold Pos State.timeouts; simp only [hg]
            exact ⟨a1, a2, a3, a4, fun _ => trivial⟩
          | succ n =>
            obtain ⟨p, hp⟩ := timeouts_done n ({ s with running := false } : State α) rfl hu hg
            rw [hp]
            exact inv_ub h rfl rfl (by simp)
        have := key s.pending
        rw [hg] at this; exact this
      | fresh =>
        have hp : s.pending = 0 := by unfold Pos at hpos; rw [hg] at hpos; exact hpos.2.2.2.2.1
        rw [hp]
        refine ⟨h.legal, fun _ => ha, fun _ => ?_⟩
        unfold Pos State.timeouts at *; simp only [hg] at hpos ⊢
        obtain ⟨a1, a2, a3, a4, a5, a6, a7, a8, a9⟩ := hpos
        exact ⟨a1, a2, a3, a4, trivial, a6, a7, a8, a9⟩
      | waiting t0 =>
        unfold Pos at hpos; rw [hg] at hpos; simp only [hrun] at hpos
        exact absurd hpos.2.2.2.1 (by simp)
      | yielded =>
        have hp : s.pending = 0 := by unfold Pos at hpos; rw [hg] at hpos; exact hpos.2.2.2.2.1
        rw [hp]
        refine ⟨h.legal, fun _ => ha, fun _ => ?_⟩
        unfold Pos State.timeouts at *; simp only [hg] at hpos ⊢
        obtain ⟨a1, a2, a3, a4, a5, a6, a7⟩ := hpos
        exact ⟨a1, a2, a3, a4, trivial, a6, a7⟩
      | gone =>
        have hp : s.pending = 0 := by unfold Pos at hpos; rw [hg] at hpos; exact hpos.2.2.2.2.1
        rw [hp]
        refine ⟨h.legal, fun _ => ha, fun _ => ?_⟩
        unfold Pos State.timeouts at *; simp only [hg] at hpos ⊢
        obtain ⟨a1, a2, a3, a4, a5, a6, a7⟩ := hpos
        exact ⟨a1, a2, a3, a4, trivial, a6, a7⟩
    · exact h
  | wake =>
    dsimp only
    split
    · rename_i hc
      refine ⟨h.legal, fun _ => ha, fun _ => ?_⟩
      unfold Pos at *
      cases hg : s.gen with
      | waiting t0 => rw [hg] at hpos; simp only [] at hpos; rw [hc.2] at hpos; exact absurd hpos.2.2.1 (by simp)
      | fresh => rw [hg] at hpos; exact hpos
      | yielded => rw [hg] at hpos; exact hpos
      | gone => rw [hg] at hpos; exact hpos
      | done => rw [hg] at hpos; simp only [] at hpos ⊢; exact ⟨hpos.1, hpos.2.1, hpos.2.2.1, hpos.2.2.2.1, fun e => by cases e⟩
    · exact h
  | drop =>
    dsimp only
    split
    · rename_i hc
      have hw : (Spec.after s.timeout s.log).wait = none ∧ s.cwait = false := by
        unfold Pos at hpos
        cases hg : s.gen with
        | waiting t0 => rw [hg] at hpos; simp only [] at hpos; rw [hc.1] at hpos; exact absurd hpos.2.2.2.1 (by simp)
        | fresh => rw [hg] at hpos; exact ⟨hpos.1, hpos.2.2.1⟩
        | yielded => rw [hg] at hpos; exact ⟨hpos.1, hpos.2.2.1⟩
        | done => rw [hg] at hpos; exact ⟨hpos.1, hpos.2.2.1⟩
        | gone => exact absurd hg hc.2
      refine ⟨h.legal.snoc hw.1, ?_, ?_⟩
      · intro _; show (Spec.after s.timeout (s.log ++ _)).alive = _; rw [Spec.after_snoc]; exact ha
      · intro _; show Pos _ (Spec.after s.timeout (s.log ++ _)); rw [Spec.after_snoc]
        exact ⟨hw.1, rfl, hw.2, rfl, rfl, rfl, rfl, rfl⟩
    · exact h

theorem inv_exec (t : Int) (ops : List (Op α)) : Inv (exec t ops) := by
  induction ops using snocInd with
  | nil => exact ⟨Legal.nil, fun _ => rfl, fun _ => ⟨rfl, rfl, rfl, rfl, rfl, rfl, rfl, rfl, rfl⟩⟩
  | snoc l op ih => rw [exec_snoc]; exact inv_step ih op

end QCoro.Listener
