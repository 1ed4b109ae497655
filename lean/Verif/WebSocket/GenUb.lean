import Verif.WebSocket.GenProps
import Verif.Listener.Ub
/- Property C53: exactly when using a message generator is undefined behaviour. -/
set_option linter.unusedSimpArgs false
namespace QCoro.WebSocketGen
open QCoro.Listener (Ev)
variable {β : Type}

/-- The listener inside, between two steps of the generator's user. -/
structure WK (L : Listener.State (Option β)) : Prop where
  alive : L.alive = true
  pend : L.pending = 0
  ndone : L.gen ≠ .done
  fresh : L.queue = [] ∧ (L.gen = .fresh → L.posted = [])
  aw : L.gen ≠ .fresh → L.gen ≠ .gone → L.awaiting = true ∧ ∃ n, .next n ∈ L.log
  gone : L.gen = .gone → .dropped ∈ L.log

theorem endsNow_got (l : List (Ev (Option β))) (x : Option β) (n : Nat) : endsNow (l ++ [.got (some x) n]) = x.isNone := by
  rw [endsNow_snoc]; cases x <;> rfl

theorem wk_fin {L : Listener.State (Option β)} (hu : L.ub = none) (ha : L.alive = true) (hp : endsNow L.log = true → L.running = true ∧ L.gen ≠ .gone)
    (hk : endsNow L.log = false → WK L) : (fin L).ub = none ∧ WK (fin L) := by
  unfold fin
  cases e : endsNow L.log with
  | false => exact ⟨hu, hk e⟩
  | true =>
    have h2 := hp e
    have : Listener.step L .drop = ({ L with gen := .gone, conn := false, posted := [], queue := [], timer := none, nconn := 0, pending := 0, awaiting := false } : Listener.State (Option β)).emit .dropped := by
      simp only [Listener.step]; rw [if_neg (by simp [hu]), if_pos h2]
    simp only [if_true]
    rw [this]
    exact ⟨hu, ⟨ha, rfl, by simp [Listener.State.emit], by simp [Listener.State.emit], by simp [Listener.State.emit], by simp [Listener.State.emit]⟩⟩

/-- One step: undefined behaviour exactly if an event is delivered to a suspended consumer that is not waiting in the generator. -/
theorem wk_step {s : State β} (hi : Listener.Inv s.L) (hu : s.L.ub = none) (hlast : endsNow s.L.log = false) (k : WK s.L) (op : Op β) :
    ((step s op).L.ub = none ∧ WK (step s op).L ∧ ¬ (op = .deliver ∧ s.L.running = false ∧ s.L.posted ≠ [] ∧ s.L.gen = .yielded)) ∨
    ((step s op).L.ub = some .spuriousResume ∧ op = .deliver ∧ s.L.running = false ∧ s.L.posted ≠ [] ∧ s.L.gen = .yielded) := by
  have hpos := hi.pos hu
  obtain ⟨L, early⟩ := s
  dsimp only at *
  have hfin : fin L = L := by unfold fin; rw [hlast]; rfl
  have emit : ∀ x, L.gen ≠ .fresh → (Listener.step L (.emit x)).ub = none ∧ WK (Listener.step L (.emit x)) := by
    intro x hf
    have e : Listener.step L (.emit x) = { (L.emit (.emitted x L.now)) with posted := if L.conn then L.posted ++ [x] else L.posted } := by
      cases hc : L.conn <;> simp [Listener.step, hu, k.alive, hc, Listener.State.emit]
    rw [e]
    refine ⟨hu, ⟨k.alive, k.pend, k.ndone, ⟨k.fresh.1, fun h => absurd h hf⟩, fun h1 h2 => ?_, fun h => by simp [Listener.State.emit, k.gone h]⟩⟩
    obtain ⟨h3, n, h4⟩ := k.aw h1 h2
    exact ⟨h3, n, by simp [Listener.State.emit, h4]⟩
  cases op with
  | msg a =>
    left; simp only [step]
    split
    · exact ⟨hu, k, by simp⟩
    · rename_i h; exact ⟨(emit _ h).1, (emit _ h).2, by simp⟩
  | state c =>
    left; simp only [step]
    split
    · exact ⟨hu, k, by simp⟩
    · rename_i h; have := emit none (fun e => h (.inl e)); exact ⟨this.1, this.2, by simp⟩
  | time d =>
    left
    have e : Listener.step L (.time d) = { L with now := L.now + d } := by simp [Listener.step, hu]
    simp only [step]; rw [e]
    exact ⟨hu, ⟨k.alive, k.pend, k.ndone, k.fresh, k.aw, k.gone⟩, by simp⟩
  | wake =>
    left
    simp only [step, Listener.step]; rw [if_neg (by simp [hu])]
    split
    · exact ⟨hu, ⟨k.alive, k.pend, k.ndone, k.fresh, k.aw, k.gone⟩, by simp⟩
    · exact ⟨hu, k, by simp⟩
  | drop =>
    left
    simp only [step, Listener.step]; rw [if_neg (by simp [hu])]
    split
    · exact ⟨hu, ⟨k.alive, rfl, by simp [Listener.State.emit], by simp [Listener.State.emit], by simp [Listener.State.emit], by simp [Listener.State.emit]⟩, by simp⟩
    · exact ⟨hu, k, by simp⟩
  | pause =>
    left
    simp only [step]
    have e : Listener.step L .pause = { L with running := false } := by
      simp only [Listener.step]; rw [if_neg (by simp [hu])]
      by_cases hr : L.running = true
      · rw [if_pos hr, k.pend]; rfl
      · rw [if_neg hr]
        have : L.running = false := by simpa using hr
        rw [← this]
    rw [e]
    have := wk_fin (L := { L with running := false }) hu k.alive (fun h => by have h : endsNow L.log = true := h; rw [hlast] at h; cases h)
      (fun _ => ⟨k.alive, k.pend, k.ndone, k.fresh, k.aw, k.gone⟩)
    exact ⟨this.1, this.2, by simp⟩
  | fire =>
    left
    simp only [step]
    have idle : Listener.step L .fire = L → (fin (Listener.step L .fire)).ub = none ∧ WK (fin (Listener.step L .fire)) ∧ ¬ (Op.fire = (.deliver : Op β) ∧ L.running = false ∧ L.posted ≠ [] ∧ L.gen = .yielded) := by
      intro e; rw [e, hfin]; exact ⟨hu, k, by simp⟩
    by_cases hr : L.running = true
    · exact idle (by simp [Listener.step, hu, hr])
    unfold Listener.Pos at hpos
    obtain ⟨g, hg⟩ : ∃ g, L.gen = g := ⟨_, rfl⟩
    obtain ⟨tm, htm⟩ : ∃ tm, L.timer = tm := ⟨_, rfl⟩
    cases tm with
    | none => exact idle (by simp [Listener.step, hu, hr, htm])
    | some d =>
      by_cases hd : d ≤ L.now
      · cases g with
        | waiting t0 =>
          rw [hg] at hpos; simp only [] at hpos
          obtain ⟨a1, a2, a3, a4, a5, a6, a7, a8, a9, a10, a11, a12⟩ := hpos
          obtain ⟨n, hn⟩ : ∃ n, L.nconn = n + 1 := ⟨L.nconn - 1, by have := (a11 (a10 d htm).1 k.alive).2; omega⟩
          have e : Listener.step L .fire = Listener.State.timeouts L.nconn { L with timer := none } := by simp [Listener.step, hu, hr, htm, hd]
          have e1 : Listener.State.timeouts (n + 1) ({ L with timer := none } : Listener.State (Option β)) =
              Listener.State.timeouts n (({ L with timer := none, conn := false } : Listener.State (Option β)).dequeue) := by
            conv => lhs; unfold Listener.State.timeouts
            rw [if_neg (by simp [hu]), if_neg (by simp [a4])]
            unfold Listener.State.resumeGen; simp only [hg]
          have e3 : ({ L with timer := none, conn := false } : Listener.State (Option β)).dequeue = ({ L with timer := none, conn := false, gen := .done, cwait := false, running := true, log := L.log ++ [.got none L.now] } : Listener.State (Option β)) := by
            unfold Listener.State.dequeue Listener.State.toConsumer; simp only [a6, a3, if_true, Listener.State.emit]
          have e4 : Listener.step L .fire = ({ L with timer := none, conn := false, gen := .done, cwait := false, running := true, log := L.log ++ [.got none L.now], pending := n } : Listener.State (Option β)) := by
            rw [e]
            have ht : ∀ s' : Listener.State (Option β), Listener.State.timeouts L.nconn s' = Listener.State.timeouts (n + 1) s' := fun _ => by rw [hn]
            rw [ht, e1, e3]; exact Listener.timeouts_running n _ rfl hu
          rw [e4]
          have := wk_fin (L := { L with timer := none, conn := false, gen := .done, cwait := false, running := true, log := L.log ++ [.got none L.now], pending := n }) hu k.alive
            (fun _ => ⟨rfl, by simp⟩) (fun h => by have h : endsNow (L.log ++ [.got none L.now]) = false := h; rw [endsNow_snoc] at h; cases h)
          exact ⟨this.1, this.2, by simp⟩
        | _ => rw [hg] at hpos; simp only [] at hpos; rw [hpos.2.2.2.1] at htm; cases htm
      · exact idle (by simp [Listener.step, hu, hr, htm, hd])
  | deliver =>
    simp only [step]
    have idle : Listener.step L .deliver = L → (L.running = true ∨ L.posted = []) → (fin (Listener.step L .deliver)).ub = none ∧ WK (fin (Listener.step L .deliver)) ∧ ¬ (True ∧ L.running = false ∧ L.posted ≠ [] ∧ L.gen = .yielded) := by
      intro e h; rw [e, hfin]; refine ⟨hu, k, ?_⟩
      rintro ⟨_, h1, h2, _⟩
      rcases h with h | h
      · rw [h] at h1; cases h1
      · exact h2 h
    by_cases hr : L.running = true
    · exact .inl (idle (by simp [Listener.step, hu, hr]) (.inl hr))
    have hr' : L.running = false := by simpa using hr
    obtain ⟨po, hq⟩ : ∃ po, L.posted = po := ⟨_, rfl⟩
    cases po with
    | nil => exact .inl (idle (by simp [Listener.step, hu, hq]) (.inr hq))
    | cons a rest =>
      have e : Listener.step L .deliver = ({ L with posted := rest } : Listener.State (Option β)).slot a := by simp [Listener.step, hu, hr, hq]
      unfold Listener.Pos at hpos
      obtain ⟨g, hg⟩ : ∃ g, L.gen = g := ⟨_, rfl⟩
      cases g with
      | fresh => rw [k.fresh.2 hg] at hq; cases hq
      | done => exact absurd hg k.ndone
      | gone => rw [hg] at hpos; simp only [] at hpos; rw [hpos.2.2.2.2.2.1] at hq; cases hq
      | yielded =>
        right
        rw [hg] at hpos; simp only [] at hpos
        obtain ⟨ha, _⟩ := k.aw (by rw [hg]; simp) (by rw [hg]; simp)
        have e2 : Listener.step L .deliver = ({ L with posted := rest, timer := none, queue := L.queue ++ [a] } : Listener.State (Option β)).dequeue := by
          rw [e]; simp only [Listener.State.slot]; rw [if_pos ha]; unfold Listener.State.resumeGen; rw [hg]; simp only [Listener.State.awaitQueue]; rw [if_pos (.inr (by simp))]
        have e3 : (Listener.step L .deliver).ub = some .spuriousResume ∧ (Listener.step L .deliver).log = L.log := by
          rw [e2]; unfold Listener.State.dequeue
          cases hqq : L.queue <;> simp [Listener.State.toConsumer, hpos.2.2.1]
        have e4 : fin (Listener.step L .deliver) = Listener.step L .deliver := by unfold fin; rw [e3.2, hlast]; rfl
        rw [e4]
        exact ⟨e3.1, trivial, hr', by rw [hq]; simp, hg⟩
      | waiting t0 =>
        left
        rw [hg] at hpos; simp only [] at hpos
        obtain ⟨a1, a2, a3, a4, a5, a6, a7, a8, _⟩ := hpos
        have e2 : Listener.step L .deliver = ({ L with posted := rest, timer := none, queue := [], gen := .yielded, cwait := false, running := true, log := L.log ++ [.got (some a) L.now] } : Listener.State (Option β)) := by
          rw [e]; simp [Listener.State.slot, a5, Listener.State.resumeGen, hg, Listener.State.dequeue, a6, Listener.State.toConsumer, a3, Listener.State.emit]
        obtain ⟨n, hn⟩ := (k.aw (by rw [hg]; simp) (by rw [hg]; simp)).2
        have := wk_fin (L := { L with posted := rest, timer := none, queue := [], gen := .yielded, cwait := false, running := true, log := L.log ++ [.got (some a) L.now] }) hu k.alive
          (fun _ => ⟨rfl, by simp⟩) (fun _ => ⟨k.alive, k.pend, by simp, by simp, fun _ _ => ⟨a5, n, by simp [hn]⟩, by simp⟩)
        rw [e2]
        exact ⟨this.1, this.2, by rw [hg]; simp⟩
  | next =>
    left
    simp only [step]
    by_cases hc : L.running = true ∧ (L.gen = .fresh ∨ L.gen = .yielded)
    · have hcw : L.cwait = false := by
        unfold Listener.Pos at hpos
        rcases hc.2 with h | h <;> (rw [h] at hpos; exact hpos.2.2.1)
      have e : Listener.step L .next = (if (({ L with running := false, cwait := true } : Listener.State (Option β)).emit (.next L.now)).awaitQueue.running
          then (({ L with running := false, cwait := true } : Listener.State (Option β)).emit (.next L.now)).awaitQueue
          else Listener.State.timeouts (({ L with running := false, cwait := true } : Listener.State (Option β)).emit (.next L.now)).awaitQueue.pending (({ L with running := false, cwait := true } : Listener.State (Option β)).emit (.next L.now)).awaitQueue) := by
        have : (({ L with running := false, cwait := true } : Listener.State (Option β)).emit (.next L.now)).resumeGen = (({ L with running := false, cwait := true } : Listener.State (Option β)).emit (.next L.now)).awaitQueue := by
          unfold Listener.State.resumeGen Listener.State.emit; dsimp only
          rcases hc.2 with h | h <;> rw [h]
        simp only [Listener.step]; rw [if_neg (by simp [hu]), if_pos hc, this]
      obtain ⟨q, hq⟩ : ∃ q, L.queue = q := ⟨_, rfl⟩
      cases q with
      | cons a q =>
        exfalso; have := k.fresh.1; rw [hq] at this; cases this
      | nil =>
        obtain ⟨nc, tm, e1⟩ : ∃ nc tm, (({ L with running := false, cwait := true } : Listener.State (Option β)).emit (.next L.now)).awaitQueue =
            ({ L with running := false, cwait := true, log := L.log ++ [.next L.now], nconn := nc, timer := tm, awaiting := true, gen := .waiting L.now } : Listener.State (Option β)) := by
          unfold Listener.State.awaitQueue
          rw [if_neg (by simp [Listener.State.emit, hq, k.alive])]
          by_cases hto : L.timeout > -1
          · exact ⟨L.nconn + 1, some (L.now + L.timeout.toNat), by simp [Listener.State.emit, hto]⟩
          · exact ⟨L.nconn, L.timer, by simp [Listener.State.emit, hto]⟩
        rw [e, e1, if_neg (by simp)]
        simp only [k.pend, Listener.State.timeouts]
        have := wk_fin (L := { L with running := false, cwait := true, log := L.log ++ [.next L.now], nconn := nc, timer := tm, awaiting := true, gen := .waiting L.now, pending := 0 }) hu k.alive
          (fun h => by have h : endsNow (L.log ++ [.next L.now]) = true := h; rw [endsNow_snoc] at h; cases h)
          (fun _ => ⟨k.alive, rfl, by simp, ⟨k.fresh.1, by simp⟩, fun _ _ => ⟨rfl, L.now, by simp⟩, by simp⟩)
        exact ⟨this.1, this.2, by simp⟩
    · have e : Listener.step L .next = L := by simp only [Listener.step]; rw [if_neg (by simp [hu]), if_neg hc]
      rw [e, hfin]; exact ⟨hu, k, by simp⟩

theorem run_ub_prefix {t : Int} {ops : List (Op β)} {op : Op β} (h : (run t (ops ++ [op])).L.ub = none) : (run t ops).L.ub = none := by
  rw [run_snoc] at h
  cases e : (run t ops).L.ub with
  | none => rfl
  | some u =>
    have hs := step_ub (run t ops).L (h := by rw [e]; simp)
    have hf : fin (run t ops).L = (run t ops).L := by unfold fin; split; exact hs _; rfl
    cases op <;> simp only [step, hs, hf] at h <;> (try split at h) <;> (simp only [e] at h; cases h)

theorem inv_run (t : Int) (ops : List (Op β)) : Listener.Inv (run t ops).L := by
  obtain ⟨lops, e, _⟩ := sim t ops
  rw [e]; exact Listener.inv_exec t lops

theorem wk_run (t : Int) (ops : List (Op β)) (hu : (run t ops).L.ub = none) : WK (run t ops).L := by
  induction ops using snocInd with
  | nil => exact ⟨rfl, rfl, by simp [run], ⟨rfl, fun _ => rfl⟩, by simp [run], by simp [run]⟩
  | snoc ops op ih =>
    have hu0 := run_ub_prefix hu
    rw [run_snoc] at hu ⊢
    rcases wk_step (inv_run t ops) hu0 (winv t ops).last (ih hu0) op with ⟨_, h, _⟩ | ⟨h, _⟩
    · exact h
    · rw [h] at hu; cases hu

theorem released_log (t : Int) (ops : List (Op β)) : .released ∈ (run t ops).log ↔ .dropped ∈ (run t ops).L.log := by
  have hn := (winv t ops).fine.nodest
  unfold State.log
  rw [List.mem_append]
  constructor
  · rintro (h | h)
    · obtain ⟨a, _, ha⟩ := List.mem_map.1 h; cases ha
    · obtain ⟨e, he, hv⟩ := List.mem_map.1 h
      cases e with
      | dropped => exact he
      | destroyed n => exact absurd he (hn n)
      | emitted a n => cases a <;> cases hv
      | next n => cases hv
      | got r n => cases r with
        | none => cases hv
        | some a => cases a <;> cases hv
  · intro h; right; exact List.mem_map.2 ⟨_, h, rfl⟩

theorem next_log (s : State β) (n : Nat) : .next n ∈ s.log ↔ .next n ∈ s.L.log := by
  unfold State.log
  rw [List.mem_append]
  constructor
  · rintro (h | h)
    · obtain ⟨a, _, ha⟩ := List.mem_map.1 h; cases ha
    · obtain ⟨e, he, hv⟩ := List.mem_map.1 h
      obtain ⟨k, rfl⟩ := (isNext_view e).1 (by rw [hv]; rfl)
      simp [view] at hv; subst hv; exact he
  · intro h; right; exact List.mem_map.2 ⟨_, h, rfl⟩

theorem asked_of_L (s : State β) (t0 : Nat) (h : Listener.Asked s.L.log t0) : Asked s.log t0 := by
  obtain ⟨p, q, e, hq⟩ := h
  refine ⟨s.early.map .msg ++ p.map view, q.map view, by simp [State.log, e, view], ?_⟩
  intro x hx
  obtain ⟨y, hy, rfl⟩ := List.mem_map.1 hx
  rw [isAnswer_view]; exact hq y hy

/-- **Exactly when a step of the program is undefined behaviour** (C53): the event loop delivers a report of the socket to a
suspended consumer that is not waiting in `begin()`/`++` but has called `begin()` before, and the generator has not been released.
The consumer is then resumed at a place where it waits for something else. -/
theorem C53_ub_iff (t : Int) (ops : List (Op β)) (op : Op β) (hu : (run t ops).L.ub = none) :
    ((run t (ops ++ [op])).L.ub ≠ none ↔ op = .deliver ∧ (run t ops).L.running = false ∧ (run t ops).L.posted ≠ [] ∧
      (∀ t0, ¬ Asked (run t ops).log t0) ∧ (∃ n, .next n ∈ (run t ops).log) ∧ .released ∉ (run t ops).log) ∧
    ((run t (ops ++ [op])).L.ub ≠ none → (run t (ops ++ [op])).L.ub = some .spuriousResume) := by
  have hi := inv_run t ops
  have k := wk_run t ops hu
  have hrel := released_log t ops
  have hnx := next_log (run t ops)
  have ha := asked_L (run t ops)
  have hpos := hi.pos hu
  have hstep := wk_step hi hu (winv t ops).last k op
  rw [run_snoc]
  have key : (run t ops).L.posted ≠ [] → ((run t ops).L.gen = .yielded ↔
      ((∀ t0, ¬ Asked (run t ops).log t0) ∧ (∃ n, .next n ∈ (run t ops).log) ∧ .released ∉ (run t ops).log)) := by
    intro hpo
    rw [hrel]
    constructor
    · intro hg
      refine ⟨?_, ?_, ?_⟩
      · intro t0 h
        have := Listener.asked_gen hi hu t0 (ha t0 h)
        rw [hg] at this; cases this
      · obtain ⟨_, n, hn⟩ := k.aw (by rw [hg]; simp) (by rw [hg]; simp)
        exact ⟨n, (hnx n).2 hn⟩
      · intro hd
        have h1 : (Listener.Spec.after (run t ops).L.timeout (run t ops).L.log).ended = true := (Listener.spec_facts _ hi.legal).2.2.2.2.2 (.inr hd)
        unfold Listener.Pos at hpos; rw [hg] at hpos
        rw [hpos.2.1] at h1; cases h1
    · rintro ⟨h1, _, h3⟩
      cases hg : (run t ops).L.gen with
      | yielded => rfl
      | fresh => exact absurd (k.fresh.2 hg) hpo
      | done => exact absurd hg k.ndone
      | gone => exact absurd (k.gone hg) h3
      | waiting t0 =>
        unfold Listener.Pos at hpos; rw [hg] at hpos
        exact absurd (asked_of_L _ t0 (Listener.wait_asked _ _ _ hpos.1)) (h1 t0)
  rcases hstep with ⟨h1, _, h2⟩ | ⟨h1, h2, h3, h4, h5⟩
  · refine ⟨⟨fun h => absurd h1 h, ?_⟩, fun h => absurd h1 h⟩
    rintro ⟨g1, g2, g3, g4⟩
    exact absurd ⟨g1, g2, g3, (key g3).2 g4⟩ h2
  · refine ⟨⟨fun _ => ⟨h2, h3, h4, (key h4).1 h5⟩, fun _ => by rw [h1]; simp⟩, fun _ => h1⟩

/-- Nothing is lost and nothing waits inside the generator: as long as there was no undefined behaviour and the generator is not
released, everything the socket reported since the first `begin()` was given to the consumer or is still in the event loop. -/
theorem C53_nothing_lost (t : Int) (ops : List (Op β)) (hu : (run t ops).L.ub = none) (hrel : .released ∉ (run t ops).log) :
    feed (run t ops).log = (obtained (run t ops).log).map some ++ (run t ops).L.posted := by
  have h := ok_run t ops
  have hw := winv t ops
  have k := wk_run t ops hu
  obtain ⟨lops, hs, _⟩ := sim t ops
  rw [released_log] at hrel
  have hgo : Listener.Going (run t ops).L.log := by
    refine ⟨?_, hrel⟩
    intro n hm
    obtain ⟨p, q, e⟩ := List.append_of_mem hm
    rcases hw.fine.ends p _ q e rfl with hq | ⟨q', hq⟩
    · have := hw.last; rw [e, hq, endsNow_snoc] at this; cases this
    · exact hrel (by rw [e, hq]; simp)
  have hl := Listener.C33_nothing_lost t lops (by rw [← hs]; exact hu) (by rw [← hs]; exact hgo)
  rw [← hs, k.fresh.1, List.append_nil] at hl
  generalize run t ops = s at *
  have hg := no_disc_yet s.early h hw.last ((Listener.going_iff h.legal).1 hgo)
  have hob : obtained s.log = (Listener.gots s.L.log).filterMap id := obtained_eq s.early s.L.log
  by_cases hn : ∃ m, .next m ∈ s.L.log
  · rw [show feed s.log = Listener.emissions s.L.log from feed_eq s.early h hn, hl, hg]; rfl
  · have h1 : feed s.log = [] := feed_none s.early s.L.log (fun m hm => hn ⟨m, hm⟩)
    have h2 : Listener.gots s.L.log = [] := by
      have := no_next h (fun m hm => hn ⟨m, hm⟩)
      unfold Listener.gots
      rw [List.filterMap_eq_nil_iff]
      intro e he
      have := this e he
      cases e <;> simp_all [Listener.isGot]
    have h3 : s.L.posted = [] := by
      rcases hge : s.L.gen with _ | t0 | _ | _ | _
      · exact k.fresh.2 hge
      all_goals first
        | exact absurd hge k.ndone
        | exact absurd (k.gone hge) hrel
        | exact absurd (k.aw (by rw [hge]; simp) (by rw [hge]; simp)).2 hn
    rw [h1, hob, h2, h3]; rfl

/-- A consumer that asks is never answered at once: it waits for a report to be delivered by the event loop. -/
theorem C53_asks_waits (t : Int) (ops : List (Op β)) (hu : (run t ops).L.ub = none) (hrel : .released ∉ (run t ops).log)
    (hr : (run t ops).L.running = true) :
    (run t (ops ++ [.next])).log = (run t ops).log ++ [.next (run t ops).L.now] ∧ (run t (ops ++ [.next])).L.ub = none ∧
    (run t (ops ++ [.next])).L.running = false := by
  have hi := inv_run t ops
  have k := wk_run t ops hu
  have hw := winv t ops
  have hpos := hi.pos hu
  rw [released_log] at hrel
  rw [run_snoc]
  generalize run t ops = s at *
  obtain ⟨L, early⟩ := s
  dsimp only at *
  have hc : L.gen = .fresh ∨ L.gen = .yielded := by
    rcases hge : L.gen with _ | t0 | _ | _ | _
    · exact .inl rfl
    all_goals first
      | exact .inr rfl
      | exact absurd hge k.ndone
      | exact absurd (k.gone hge) hrel
      | (unfold Listener.Pos at hpos; rw [hge] at hpos; simp only [] at hpos; rw [hpos.2.2.2.1] at hr; cases hr)
  have e : Listener.step L .next = (if (({ L with running := false, cwait := true } : Listener.State (Option β)).emit (.next L.now)).awaitQueue.running
      then (({ L with running := false, cwait := true } : Listener.State (Option β)).emit (.next L.now)).awaitQueue
      else Listener.State.timeouts (({ L with running := false, cwait := true } : Listener.State (Option β)).emit (.next L.now)).awaitQueue.pending (({ L with running := false, cwait := true } : Listener.State (Option β)).emit (.next L.now)).awaitQueue) := by
    have : (({ L with running := false, cwait := true } : Listener.State (Option β)).emit (.next L.now)).resumeGen = (({ L with running := false, cwait := true } : Listener.State (Option β)).emit (.next L.now)).awaitQueue := by
      unfold Listener.State.resumeGen Listener.State.emit; dsimp only
      rcases hc with h | h <;> rw [h]
    simp only [Listener.step]; rw [if_neg (by simp [hu]), if_pos ⟨hr, hc⟩, this]
  obtain ⟨nc, tm, e1⟩ : ∃ nc tm, (({ L with running := false, cwait := true } : Listener.State (Option β)).emit (.next L.now)).awaitQueue =
      ({ L with running := false, cwait := true, log := L.log ++ [.next L.now], nconn := nc, timer := tm, awaiting := true, gen := .waiting L.now } : Listener.State (Option β)) := by
    unfold Listener.State.awaitQueue
    rw [if_neg (by simp [Listener.State.emit, k.fresh.1, k.alive])]
    by_cases hto : L.timeout > -1
    · exact ⟨L.nconn + 1, some (L.now + L.timeout.toNat), by simp [Listener.State.emit, hto]⟩
    · exact ⟨L.nconn, L.timer, by simp [Listener.State.emit, hto]⟩
  rw [e1, if_neg (by simp)] at e
  simp only [k.pend, Listener.State.timeouts] at e
  have hf : fin (Listener.step L .next) = Listener.step L .next := by
    unfold fin; rw [e]; dsimp only; rw [endsNow_snoc]; rfl
  simp only [step, hf, State.log]
  rw [e]
  exact ⟨by simp [view], hu, rfl⟩

-- a consumer that is busy elsewhere when a message is delivered, and one that is not
example : let s := run (-1) [.next, .msg (1 : Nat), .deliver, .pause, .msg 2]
    s.L.ub = none ∧ s.L.running = false ∧ s.L.posted ≠ [] ∧ .next 0 ∈ s.log ∧ .released ∉ s.log := by decide
example : (run (-1) [.next, .msg (1 : Nat), .deliver, .pause, .msg 2, .wake, .next, .deliver, .next]).L.ub = none := by decide

end QCoro.WebSocketGen
