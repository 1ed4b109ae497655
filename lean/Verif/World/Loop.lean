import Verif.World.Props
/-! # C87: what the event loop does -/
set_option linter.unusedSimpArgs false
namespace QCoro.World
open QCoro
variable {σ V E α : Type} [DecidableEq V] [DecidableEq E]

theorem filterMap_if (p : Nat → Prop) [DecidablePred p] (a : α) (l : List Nat) :
    (l.filterMap fun w => if p w then some (w, a) else none) = (l.filter fun w => decide (p w)).map fun w => (w, a) := by
  induction l with
  | nil => rfl
  | cons w l ih =>
    rw [List.filterMap_cons, List.filter_cons]
    by_cases hc : p w
    · simp [hc, ih]
    · simp [hc, ih]

omit [DecidableEq V] [DecidableEq E] in
/-- Whose `co_await` a pending wait is. -/
theorem whose {P : Task.Prog σ V E} {dec : Option α → V} {s : State σ V E α} (hw : WInv P dec s) {j w th k t ems d}
    (h : (Sig.Spec.after (s.S j).log).ph w = .waiting th k t ems d) :
    th = 0 ∧ Task.life (s.own j w) s.T.log = .waitExt ∧
      ∃ pre m, s.hist = pre ++ .task (.extSusp (s.own j w)) :: .sig j (.awaited w 0 k t) :: m ∧ (∀ e ∈ m, extOf (s.own j w) e = false) ∧ ems = emitted j m := by
  obtain ⟨h1, h2, h3⟩ := hw.j.a _ _ _ _ _ _ _ h
  subst h1
  obtain ⟨mid, ⟨⟨pre, ho⟩, hn⟩, hb⟩ := hw.j.b _ h3
  rw [h2] at hb
  obtain ⟨_, _, k1, t1, hh⟩ := hb
  cases mid with
  | nil => simp at hh
  | cons e m =>
    simp only [List.head?_cons, Option.some.injEq] at hh
    subst hh
    obtain ⟨sops, hs⟩ := hw.so j
    have hI := Sig.inv_exec sops
    rw [← hs] at hI
    have hps := hw.j.ps j
    have hll : (s.S j).log = pre.filterMap (sg j) ++ .awaited w 0 k1 t1 :: m.filterMap (sg j) := by
      rw [← hps, ho]; simp [sg, List.filterMap_cons]
    rcases Sig.track w 0 k1 t1 _ _ (by rw [← hll]; exact hI.legal) with ⟨_, _, h4⟩ | ⟨_, h4⟩
    · rw [← hll, h] at h4
      obtain ⟨_, rfl, rfl, rfl, _⟩ := Sig.Ph.waiting.inj h4
      exact ⟨rfl, h3, pre, m, ho, fun e he => hn e (by simp [he]), emitted_eq j m⟩
    · rw [← hll, h] at h4; simp at h4

omit [DecidableEq V] [DecidableEq E] in
theorem wake_hist {P : Task.Prog σ V E} {dec : Option α → V} {s : State σ V E α} (hw : WInv P dec s) (hm : s.T.mayAct = true) (hT : s.T.ub = none) {j : Nat} {S' : Sig.State α} {w now : Nat} {x : Option α}
    (hl : S'.log = (s.S j).log ++ [.resumed w 0 x now false]) (hlf : Task.life (s.own j w) s.T.log = .waitExt) :
    (s.wake P dec j S').hist = s.hist ++ [.sig j (.resumed w 0 x now false), .task (.extRes (s.own j w) (.val (dec x)))] ∧ (s.wake P dec j S').S j = S' := by
  unfold State.wake
  rw [show new (s.S j).log S'.log = [.resumed w 0 x now false] by rw [hl, new_append]]
  obtain ⟨tops, hto⟩ := hw.t
  have hst : (s.T.coro (s.own j w)).status = .waitExt := by rw [← hlf, hto]; exact ((Task.exec_linv P tops).life _).symm
  have hf := Task.ext_fire P s.T (s.own j w) (.val (dec x)) hT hm hst
  dsimp only
  rw [hf, new_append]
  exact ⟨rfl, upd_same _ _ _⟩

/-- C87. An emission reaches everybody who waits: it is recorded, and posted to each pending wait, in the order in which they began. -/
theorem C87_emit (P : Task.Prog σ V E) (dec : Option α → V) (ops : List (Op σ V E α)) (hs : (exec P dec ops).stop = false) (hu : (exec P dec ops).T.ub = none) (j th : Nat) (a : α)
    (hal : .sig j .destroyed ∉ (exec P dec ops).hist) :
    (exec P dec (ops ++ [.emit j th a])).hist = (exec P dec ops).hist ++ [.sig j (.emitted th a)] ∧
    ∃ l : List Nat, ((exec P dec (ops ++ [.emit j th a])).S j).posted 0 = ((exec P dec ops).S j).posted 0 ++ l.map (fun w => (w, a)) ∧ l.Pairwise (· < ·) ∧
      ∀ w, w ∈ l ↔ ∃ c pre k t m, (exec P dec ops).hist = pre ++ .task (.extSusp c) :: .sig j (.awaited w 0 k t) :: m ∧ ∀ r, .task (.extRes c r) ∉ m := by
  have hw := winv_exec P dec ops
  rw [exec_snoc]
  generalize exec P dec ops = s at *
  obtain ⟨sops, hso⟩ := hw.so j
  have hI := Sig.inv_exec sops
  rw [← hso] at hI
  have hub := hw.u hs j
  have hps := hw.j.ps j
  have ha : (s.S j).alive = true := by
    rw [← hI.alive, alive_after, ← hps, mem_sg]; exact hal
  have he : Sig.step (s.S j) (.emit th a) = { (s.S j).emit (.emitted th a) with posted := fun t => ((s.S j).emit (.emitted th a)).posted t ++ (List.range (s.S j).nw).filterMap (fun w => if ((((s.S j).emit (.emitted th a)).ws w).conn = true ∧ (((s.S j).emit (.emitted th a)).ws w).thread = t) then some (w, a) else none) } := by
    simp only [Sig.step, hub, Option.isSome_none, Bool.false_eq_true, if_false, ha, if_true]
    rw [Sig.emit_fold _ _ _ List.nodup_range]
  have hstep : step P dec s (.emit j th a) = s.quiet j (Sig.step (s.S j) (.emit th a)) := by simp [step, hs, hu]
  rw [hstep]
  simp only [State.quiet]
  rw [upd_same, he]
  refine ⟨by simp [Sig.State.emit, new_append], (List.range (s.S j).nw).filter (fun w => decide (((s.S j).ws w).conn = true ∧ ((s.S j).ws w).thread = 0)), ?_, ?_, ?_⟩
  · exact congrArg (((s.S j).posted 0) ++ ·) (filterMap_if (fun w => ((s.S j).ws w).conn = true ∧ ((s.S j).ws w).thread = 0) a _)
  · exact (List.pairwise_lt_range).filter _
  · intro w
    rw [List.mem_filter]
    have hr := hI.rel w
    obtain ⟨p, hp⟩ : ∃ p, (Sig.Spec.after (s.S j).log).ph w = p := ⟨_, rfl⟩
    rw [hp] at hr
    constructor
    · rintro ⟨_, hc⟩
      simp only [decide_eq_true_eq] at hc
      cases p with
      | unborn => rw [hr.2.1] at hc; simp at hc
      | over => rw [hr.2.1] at hc; simp at hc
      | waiting th' k t ems d =>
        obtain ⟨_, _, pre, m, h1, h2, _⟩ := whose hw hp
        refine ⟨_, pre, k, t, m, h1, fun r hr => ?_⟩
        have := h2 _ hr
        simp [extOf] at this
    · rintro ⟨c, pre, k, t, m, h1, h2⟩
      obtain ⟨hl, hx⟩ := pending hw h1 (fun r hr => by
        rcases List.mem_cons.1 hr with hr | hr
        · simp at hr
        · exact h2 r hr)
      obtain ⟨mid, ho, hb⟩ := hw.j.b c hl
      have := ho.unique ⟨⟨pre, h1⟩, hx⟩
      subst this
      obtain ⟨o, hat⟩ : ∃ o, s.at_ c = o := ⟨_, rfl⟩
      rw [hat] at hb
      cases o with
      | none => simp [Bx, isAw] at hb
      | some q =>
        obtain ⟨j', w'⟩ := q
        obtain ⟨_, ⟨th', k', t', ems, d, hph⟩, k2, t2, he⟩ := hb
        simp only [List.head?_cons, Option.some.injEq, JEv.sig.injEq, Sig.Ev.awaited.injEq] at he
        obtain ⟨rfl, rfl, _, rfl, rfl⟩ := he
        rw [hp] at hph
        subst hph
        obtain ⟨rfl, _⟩ := hw.j.a _ _ _ _ _ _ _ hp
        obtain ⟨_, r2, r3, _, _, _, _, r8, _⟩ := hr
        refine ⟨?_, by simp [r3, r8, ha]⟩
        rw [List.mem_range]
        apply Nat.lt_of_not_le
        intro hge
        have := hI.born w hge
        rw [hp] at this; simp at this

/-- C87. The event loop delivers: when it handles the next event posted by object `j`, the coroutine whose `co_await` it belongs to continues, with the emitted arguments; its other events are gone,
everybody else's remain, in order. -/
theorem C87_process (P : Task.Prog σ V E) (dec : Option α → V) (ops : List (Op σ V E α)) (hs : (exec P dec ops).stop = false) (hu : (exec P dec ops).T.ub = none)
    (hm : (exec P dec ops).T.mayAct = true) (j w : Nat) (a : α) (rest : List (Nat × α)) (hp : ((exec P dec ops).S j).posted 0 = (w, a) :: rest) :
    (∃ c pre k t m, (exec P dec ops).hist = pre ++ .task (.extSusp c) :: .sig j (.awaited w 0 k t) :: m ∧ (∀ e ∈ m, extOf c e = false) ∧
      (exec P dec (ops ++ [.process j])).hist = (exec P dec ops).hist ++ [.sig j (.resumed w 0 (some a) ((exec P dec ops).S j).now false), .task (.extRes c (.val (dec (some a))))]) ∧
    ((exec P dec (ops ++ [.process j])).S j).posted 0 = rest.filter (fun p => p.1 != w) ∧ (exec P dec (ops ++ [.process j])).stop = false := by
  have hw := winv_exec P dec ops
  rw [exec_snoc]
  generalize exec P dec ops = s at *
  obtain ⟨sops, hso⟩ := hw.so j
  have hI := Sig.inv_exec sops
  rw [← hso] at hI
  have hub := hw.u hs j
  obtain ⟨hwt, hth⟩ := hI.post 0 (w, a) (by rw [hp]; simp)
  dsimp only at hwt hth
  obtain ⟨p, hph⟩ : ∃ p, (Sig.Spec.after (s.S j).log).ph w = p := ⟨_, rfl⟩
  have hr := hI.rel w
  rw [hph] at hr
  cases p with
  | unborn => rw [hr.1] at hwt; simp at hwt
  | over => rw [hr.1] at hwt; simp at hwt
  | waiting th k t ems d =>
    obtain ⟨rfl, hlf, pre, m, h1, h2, _⟩ := whose hw hph
    have hstep : step P dec s (.process j) = s.wake P dec j (Sig.step (s.S j) (.process 0)) := by simp [step, hs, hu, hm]
    have hS : (Sig.step (s.S j) (.process 0)).log = (s.S j).log ++ [.resumed w 0 (some a) (s.S j).now false] ∧
        (Sig.step (s.S j) (.process 0)).posted 0 = rest.filter (fun p => p.1 != w) ∧ (Sig.step (s.S j) (.process 0)).ub = none := by
      simp only [Sig.step, hub, Option.isSome_none, Bool.false_eq_true, if_false, hp, Sig.State.slot, hwt, if_true, Sig.State.resume, upd_same, Sig.State.emit]
      rw [if_neg (by simp)]
      exact ⟨rfl, by simp, rfl⟩
    rw [hstep]
    obtain ⟨q1, q2⟩ := wake_hist hw hm hu hS.1 hlf
    refine ⟨⟨_, pre, k, t, m, h1, h2, q1⟩, by rw [q2]; exact hS.2.1, ?_⟩
    unfold State.wake
    rw [show new (s.S j).log (Sig.step (s.S j) (.process 0)).log = [.resumed w 0 (some a) (s.S j).now false] by rw [hS.1, new_append]]
    dsimp only
    rw [hS.2.2]; rfl

/-- C87. Timeouts end waits: if a coroutine is suspended in `co_await qCoro(obj, signal, timeout)`, the timeout is over and the object exists, the event loop continues it, with nothing, whatever was emitted
and not delivered yet. -/
theorem C87_timer (P : Task.Prog σ V E) (dec : Option α → V) (ops : List (Op σ V E α)) (hs : (exec P dec ops).stop = false) (hu : (exec P dec ops).T.ub = none)
    (hm : (exec P dec ops).T.mayAct = true) (pre m : List (JEv V E α)) (c j w : Nat) (ms : Int) (t : Nat)
    (h : (exec P dec ops).hist = pre ++ .task (.extSusp c) :: .sig j (.awaited w 0 (.timed ms) t) :: m) (hn : ∀ r, .task (.extRes c r) ∉ m)
    (hms : 0 ≤ ms) (hal : .sig j .destroyed ∉ (exec P dec ops).hist) (hnow : (t : Int) + ms ≤ ((exec P dec ops).S j).now) :
    (exec P dec (ops ++ [.fire j w])).hist = (exec P dec ops).hist ++ [.sig j (.resumed w 0 none ((exec P dec ops).S j).now false), .task (.extRes c (.val (dec none)))] := by
  have hw := winv_exec P dec ops
  rw [exec_snoc]
  generalize exec P dec ops = s at *
  obtain ⟨sops, hso⟩ := hw.so j
  have hI := Sig.inv_exec sops
  rw [← hso] at hI
  have hub := hw.u hs j
  have hps := hw.j.ps j
  have ha : (s.S j).alive = true := by
    rw [← hI.alive, alive_after, ← hps, mem_sg]; exact hal
  obtain ⟨hl, hx⟩ := pending hw h (fun r hr => by
    rcases List.mem_cons.1 hr with hr | hr
    · simp at hr
    · exact hn r hr)
  obtain ⟨mid, ho, hb⟩ := hw.j.b c hl
  have := ho.unique ⟨⟨pre, h⟩, hx⟩
  subst this
  obtain ⟨o, hat⟩ : ∃ o, s.at_ c = o := ⟨_, rfl⟩
  rw [hat] at hb
  cases o with
  | none => simp [Bx, isAw] at hb
  | some q =>
    obtain ⟨j', w'⟩ := q
    obtain ⟨hown, ⟨th', k', t', ems, d, hph⟩, k2, t2, he⟩ := hb
    simp only [List.head?_cons, Option.some.injEq, JEv.sig.injEq, Sig.Ev.awaited.injEq] at he
    obtain ⟨rfl, rfl, _, rfl, rfl⟩ := he
    have hll : (Sig.exec sops).log = pre.filterMap (sg j) ++ .awaited w 0 (.timed ms) t :: m.filterMap (sg j) := by
      rw [← hso, ← hps, h]; simp [sg, List.filterMap_cons]
    have hres : Sig.resumes w (m.filterMap (sg j)) = 0 := by
      rcases Sig.track w 0 (.timed ms) t _ _ (by rw [← hll]; exact (Sig.inv_exec sops).legal) with ⟨_, h4, _⟩ | ⟨_, h4⟩
      · exact h4
      · rw [← hll, ← hso] at h4; rw [hph] at h4; simp at h4
    have hS := Sig.C28_timeout_ends_wait sops (by rw [← hso]; exact hub) _ _ w 0 ms t hll hres hms (by rw [← hso]; exact ha) (by rw [← hso]; exact hnow)
    rw [Sig.exec_snoc, ← hso] at hS
    have hstep : step P dec s (.fire j w) = s.wake P dec j (Sig.step (s.S j) (.fire w)) := by simp [step, hs, hu, hm]
    rw [hstep, (wake_hist hw hm hu hS (by rw [hown]; exact hl)).1, hown]

/-- C87. A `co_await` of the signal of an object that exists suspends, in a new wait. -/
theorem C87_suspends (P : Task.Prog σ V E) (dec : Option α → V) (ops : List (Op σ V E α)) (hs : (exec P dec ops).stop = false) (hu : (exec P dec ops).T.ub = none) (c st f f1 : _)
    (hstk : (exec P dec ops).T.stack = .body c :: st) (hf : ((exec P dec ops).T.coro c).freed = false) (hc : ((exec P dec ops).T.coro c).code = some (.user f))
    (hn : P.next f ((exec P dec ops).T.coro c).inp = (f1, .awaitExt none)) (j : Nat) (k : Sig.Kind) (hal : .sig j .destroyed ∉ (exec P dec ops).hist) :
    ∃ w, (∀ th k t, .sig j (.awaited w th k t) ∉ (exec P dec ops).hist) ∧
      (exec P dec (ops ++ [.task .run (some (j, k))])).hist = (exec P dec ops).hist ++ [.task (.extSusp c), .sig j (.awaited w 0 k ((exec P dec ops).S j).now)] := by
  have hw := winv_exec P dec ops
  rw [exec_snoc]
  generalize exec P dec ops = s at *
  obtain ⟨sops, hso⟩ := hw.so j
  have hI := Sig.inv_exec sops
  rw [← hso] at hI
  have hps := hw.j.ps j
  have ha : (s.S j).alive = true := by
    rw [← hI.alive, alive_after, ← hps, mem_sg]; exact hal
  have hT : (Task.step P s.T .run).log = s.T.log ++ [.extSusp c] := by
    rw [Task.step_run_body hu hstk hf hc]
    simp [Task.codeNext, hn, Task.doAct, Task.doUser, Task.actState, Task.State.pop, Task.State.emit, Task.State.setCoro]
  refine ⟨(s.S j).nw, ?_, ?_⟩
  · intro th k t hmem
    rw [← mem_sg, hps] at hmem
    obtain ⟨l1, l2, hl⟩ := List.append_of_mem hmem
    have := hI.born _ (Nat.le_refl (s.S j).nw)
    rcases Sig.track (s.S j).nw th k t l1 l2 (by rw [← hl]; exact hI.legal) with ⟨_, _, h⟩ | ⟨_, h⟩
    · rw [← hl, this] at h; simp at h
    · rw [← hl, this] at h; simp at h
  · simp [step, hs, hu, isFire, State.goOn, hT, new_append, ha, State.await]

end QCoro.World
