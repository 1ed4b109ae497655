import Verif.World.Joint
/-! # Invariant of the world -/
set_option linter.unusedSimpArgs false
namespace QCoro.Sig
variable {α : Type}

/-! ### What each operation adds to the log of an object -/

theorem log_await_alive (s : State α) (hu : s.ub = none) (ha : s.alive = true) (th : Nat) (k : Kind) :
    (step s (.await th k)).log = s.log ++ [.awaited s.nw th k s.now] ∧ (step s (.await th k)).ub = none := by
  simp [step, hu, ha, State.emit]

theorem log_await_dead (s : State α) (hu : s.ub = none) (ha : s.alive = false) (th : Nat) (k : Kind) :
    (step s (.await th k)).log = s.log ++ [.awaited s.nw th k s.now, .resumed s.nw th none s.now false] := by
  simp only [step, hu, ha, Option.isSome_none, Bool.false_eq_true, if_false, if_true, State.resume, upd_same]
  split <;> simp [State.emit]

theorem log_emit (s : State α) (th : Nat) (a : α) :
    (step s (.emit th a)).ub = s.ub ∧ ((step s (.emit th a)).log = s.log ∨ (step s (.emit th a)).log = s.log ++ [.emitted th a]) := by
  simp only [step]
  split
  · exact ⟨rfl, .inl rfl⟩
  · split
    · rw [emit_fold _ _ _ List.nodup_range]
      exact ⟨rfl, .inr rfl⟩
    · exact ⟨rfl, .inl rfl⟩

theorem log_destroy (s : State α) :
    (step s .destroy).ub = s.ub ∧ ((step s .destroy).log = s.log ∨ (step s .destroy).log = s.log ++ [.destroyed]) := by
  simp only [step]
  split
  · exact ⟨rfl, .inl rfl⟩
  · split
    · exact ⟨rfl, .inr rfl⟩
    · exact ⟨rfl, .inl rfl⟩

theorem log_time (s : State α) (d : Nat) : (step s (.time d)).log = s.log ∧ (step s (.time d)).ub = s.ub := by
  simp only [step]
  split <;> exact ⟨rfl, rfl⟩

theorem log_resume (s : State α) (w th : Nat) : (s.resume w th false).log = s.log ++ [.resumed w th (s.ws w).result s.now false] := by
  simp only [State.resume]
  split <;> simp [State.emit]

theorem now_resume (s : State α) (w th : Nat) : (s.resume w th false).now = s.now := by
  simp only [State.resume]
  split <;> simp [State.emit]

theorem log_process (s : State α) (th : Nat) :
    (step s (.process th)).log = s.log ∨ ∃ w x, (step s (.process th)).log = s.log ++ [.resumed w th x s.now false] := by
  simp only [step]
  split
  · exact .inl rfl
  · split
    · exact .inl rfl
    · simp only [State.slot]
      split
      · right; exact ⟨_, _, log_resume _ _ _⟩
      · exact .inl rfl

theorem log_fire (s : State α) (w : Nat) :
    (step s (.fire w)).log = s.log ∨ ∃ th x, (step s (.fire w)).log = s.log ++ [.resumed w th x s.now false] := by
  simp only [step]
  split
  · exact .inl rfl
  · split
    · exact .inl rfl
    · split
      · split
        · right; exact ⟨_, _, log_resume _ _ _⟩
        · exact .inl rfl
      · exact .inl rfl

/-- The clock moves by itself only. -/
theorem now_step (s : State α) (op : Op α) (h : ∀ d, op ≠ .time d) : (step s op).now = s.now := by
  simp only [step]
  split
  · rfl
  · split
    · split
      · rw [now_resume]; rfl
      · split <;> rfl
    · split
      · rw [emit_fold _ _ _ List.nodup_range]; rfl
      · rfl
    · split
      · rfl
      · simp only [State.slot]
        split
        · rw [now_resume]
        · rfl
    · exact absurd rfl (h _)
    · split
      · rfl
      · split
        · split
          · rw [now_resume]
          · rfl
        · rfl
    · split <;> rfl

end QCoro.Sig

namespace QCoro.World
open QCoro
variable {σ V E α : Type} [DecidableEq V] [DecidableEq E]

/-- The invariant. Proof vocabulary, no counterpart in /repo. -/
structure WInv (P : Task.Prog σ V E) (dec : Option α → V) (s : State σ V E α) : Prop where
  t : ∃ tops, s.T = Task.exec P tops
  so : ∀ j, ∃ sops, s.S j = Sig.exec sops
  u : s.stop = false → ∀ j, (s.S j).ub = none
  n : s.stop = false → ∀ i j, (s.S i).now = (s.S j).now
  j : J dec s.T.log (fun j => (s.S j).log) s.own s.at_ s.hist

omit [DecidableEq V] [DecidableEq E] in
theorem winv_init (P : Task.Prog σ V E) (dec : Option α → V) : WInv P dec ({} : State σ V E α) := by
  refine ⟨⟨[], rfl⟩, fun j => ⟨[], rfl⟩, fun _ _ => rfl, fun _ _ _ => rfl, ⟨rfl, fun _ => rfl, ?_, ?_, Ck.nil⟩⟩
  · intro j w th k t ems d h; simp [Sig.Spec.after] at h
  · intro c h; simp [Task.init] at h

theorem new_append {β : Type} (l n : List β) : new l (l ++ n) = n := by simp [new]
theorem new_same {β : Type} (l : List β) : new l l = [] := by simp [new]

theorem upd_log (S : Nat → Sig.State α) (j : Nat) (S' : Sig.State α) : (fun i => (upd S j S' i).log) = upd (fun i => (S i).log) j S'.log := by
  funext i
  by_cases h : i = j
  · subst h; simp
  · simp [upd_other _ _ h]

theorem upd_self {β : Type} (f : Nat → β) (j : Nat) : upd f j (f j) = f := by
  funext i
  by_cases h : i = j
  · subst h; simp
  · simp [upd_other _ _ h]

omit [DecidableEq V] [DecidableEq E] in
theorem upd_run {s : State σ V E α} (h : ∀ j, ∃ sops, s.S j = Sig.exec sops) (j : Nat) (op : Sig.Op α) : ∀ i, ∃ sops, upd s.S j (Sig.step (s.S j) op) i = Sig.exec sops := by
  intro i
  by_cases hi : i = j
  · subst hi
    obtain ⟨sops, hs⟩ := h i
    exact ⟨sops ++ [op], by rw [upd_same, Sig.exec_snoc, hs]⟩
  · obtain ⟨sops, hs⟩ := h i
    exact ⟨sops, by rw [upd_other _ _ hi, hs]⟩

theorem upd_now {S : Nat → Sig.State α} (h : ∀ i j, (S i).now = (S j).now) (j : Nat) (op : Sig.Op α) (ho : ∀ d, op ≠ .time d) :
    ∀ i i', (upd S j (Sig.step (S j) op) i).now = (upd S j (Sig.step (S j) op) i').now := by
  have : ∀ i, (upd S j (Sig.step (S j) op) i).now = (S j).now := by
    intro i
    by_cases hi : i = j
    · subst hi; rw [upd_same, Sig.now_step _ _ ho]
    · rw [upd_other _ _ hi]; exact h _ _
  intro i i'; rw [this, this]

theorem upd_ub {S : Nat → Sig.State α} (h : ∀ i, (S i).ub = none) (j : Nat) (S' : Sig.State α) (hs : S'.ub.isSome = false) : ∀ i, (upd S j S' i).ub = none := by
  intro i
  by_cases hi : i = j
  · subst hi; rw [upd_same]; simpa using hs
  · rw [upd_other _ _ hi]; exact h _

omit [DecidableEq V] [DecidableEq E] in
theorem chk_step {P : Task.Prog σ V E} {T : Task.State σ V E} (h : ∃ tops, T = Task.exec P tops) (op) : Task.Chk (Task.legal P) (Task.step P T op).log ∧ ∃ tops, Task.step P T op = Task.exec P tops := by
  obtain ⟨tops, rfl⟩ := h
  have : Task.step P (Task.exec P tops) op = Task.exec P (tops ++ [op]) := by simp [Task.exec]
  rw [this]
  exact ⟨(Task.exec_linv P _).ok, _, rfl⟩

theorem WInv.goOn {P : Task.Prog σ V E} {dec : Option α → V} {s : State σ V E α} (h : WInv P dec s) (hs : s.stop = false) (op : Task.Op σ V E) (aim : Option (Nat × Sig.Kind))
    (hop : ∀ c r, op ≠ .fire c r) : WInv P dec (s.goOn P dec op aim) := by
  obtain ⟨hc, ht⟩ := chk_step h.t op
  have hub := h.u hs
  have hnow := h.n hs
  unfold State.goOn
  dsimp only
  have hplain : ∀ n, (Task.step P s.T op).log = s.T.log ++ n → (∀ e ∈ n, Task.isExt e = false) →
      WInv P dec { s with T := Task.step P s.T op, hist := s.hist ++ n.map .task } := by
    intro n hn he
    rw [hn] at hc
    exact ⟨ht, h.so, h.u, h.n, by dsimp only; rw [hn]; exact h.j.go hc he⟩
  rcases Task.ext_step P s.T op hop with ⟨n, hn, he⟩ | ⟨c, hn⟩ | ⟨c, r, hn⟩
  · rw [show new s.T.log (Task.step P s.T op).log = n by rw [hn, new_append]]
    split
    · exact absurd (he _ (List.mem_cons_self ..)) (by simp [Task.isExt])
    · exact absurd (he _ (List.mem_cons_self ..)) (by simp [Task.isExt])
    · exact absurd (he _ (List.mem_cons_self ..)) (by simp [Task.isExt])
    · exact hplain n hn he
  · rw [show new s.T.log (Task.step P s.T op).log = [.extSusp c] by rw [hn, new_append]]
    rw [hn] at hc
    cases aim with
    | none => exact ⟨ht, h.so, h.u, h.n, by dsimp only; rw [hn]; exact h.j.other hc⟩
    | some p =>
      obtain ⟨j, k⟩ := p
      dsimp only
      split
      · rename_i hal
        obtain ⟨hl, hu'⟩ := Sig.log_await_alive (s.S j) (hub j) hal 0 k
        obtain ⟨sops, hso⟩ := h.so j
        refine ⟨ht, upd_run h.so j _, fun h0 => upd_ub hub j _ h0, fun _ => upd_now hnow j _ (by simp), ?_⟩
        simp only [State.await]
        rw [upd_log, hl, hn]
        exact h.j.await hc (by rw [hso]; exact (Sig.inv_exec sops).born _ (Nat.le_refl _))
      · exact h
  · rw [show new s.T.log (Task.step P s.T op).log = [.extSusp c, .extRes c r] by rw [hn, new_append]]
    rw [hn] at hc
    cases aim with
    | none => exact ⟨ht, h.so, h.u, h.n, by dsimp only; rw [hn]; exact h.j.ready hc⟩
    | some p =>
      obtain ⟨j, k⟩ := p
      dsimp only
      split
      · rename_i hal
        have hl := Sig.log_await_dead (s.S j) (hub j) hal.1 0 k
        obtain ⟨sops, hso⟩ := h.so j
        refine ⟨ht, upd_run h.so j _, fun h0 => upd_ub hub j _ h0, fun _ => upd_now hnow j _ (by simp), ?_⟩
        simp only [State.await]
        rw [upd_log, hl, hn]
        exact h.j.dead hc hal.2 (by rw [hso]; exact (Sig.inv_exec sops).born _ (Nat.le_refl _))
      · exact h

omit [DecidableEq V] [DecidableEq E] in
theorem WInv.quiet {P : Task.Prog σ V E} {dec : Option α → V} {s : State σ V E α} (h : WInv P dec s) (hs : s.stop = false) (j : Nat) (op : Sig.Op α) (ho : ∀ d, op ≠ .time d)
    (hu : (Sig.step (s.S j) op).ub = (s.S j).ub)
    (hl : (Sig.step (s.S j) op).log = (s.S j).log ∨ ∃ e, (Sig.step (s.S j) op).log = (s.S j).log ++ [e] ∧ ((∃ th a, e = .emitted th a) ∨ e = .destroyed)) :
    WInv P dec (s.quiet j (Sig.step (s.S j) op)) := by
  have hub := h.u hs
  refine ⟨h.t, upd_run h.so j _, fun h0 => upd_ub hub j _ (by rw [hu, hub]; rfl), fun _ => upd_now (h.n hs) j _ ho, ?_⟩
  simp only [State.quiet]
  rw [upd_log]
  rcases hl with hl | ⟨e, hl, he⟩
  · rw [hl, new_same, upd_self (fun i => (s.S i).log) j]
    simpa using h.j
  · rw [hl, new_append]
    exact h.j.quiet he

omit [DecidableEq V] [DecidableEq E] in
theorem WInv.wake {P : Task.Prog σ V E} {dec : Option α → V} {s : State σ V E α} (h : WInv P dec s) (hs : s.stop = false) (hm : s.T.mayAct = true) (hT : s.T.ub = none) (j : Nat) (op : Sig.Op α) (ho : ∀ d, op ≠ .time d)
    (hl : (Sig.step (s.S j) op).log = (s.S j).log ∨ ∃ w th x now, (Sig.step (s.S j) op).log = (s.S j).log ++ [.resumed w th x now false]) :
    WInv P dec (s.wake P dec j (Sig.step (s.S j) op)) := by
  have hub := h.u hs
  unfold State.wake
  rcases hl with hl | ⟨w, th, x, now, hl⟩
  · rw [show new (s.S j).log (Sig.step (s.S j) op).log = [] by rw [hl, new_same]]
    refine ⟨h.t, upd_run h.so j _, fun h0 => upd_ub hub j _ h0, fun _ => upd_now (h.n hs) j _ ho, ?_⟩
    dsimp only
    rw [upd_log, hl, upd_self (fun i => (s.S i).log) j]
    exact h.j
  · rw [show new (s.S j).log (Sig.step (s.S j) op).log = [.resumed w th x now false] by rw [hl, new_append]]
    obtain ⟨sops, hso⟩ := h.so j
    have hok := (Sig.inv_exec (sops ++ [op])).legal (s.S j).log _ [] (by rw [Sig.exec_snoc, ← hso, hl])
    change Sig.Spec.ok (Sig.Spec.after (s.S j).log) _ at hok
    obtain ⟨p, hp⟩ : ∃ p, (Sig.Spec.after (s.S j).log).ph w = p := ⟨_, rfl⟩
    simp only [Sig.Spec.ok, hp] at hok
    cases p with
    | unborn => exact absurd hok (by simp)
    | over => exact absurd hok (by simp)
    | waiting th' k t0 ems dead =>
      obtain ⟨rfl, _, _⟩ := hok
      obtain ⟨rfl, hat, hlf⟩ := h.j.a _ _ _ _ _ _ _ hp
      obtain ⟨hc, ht⟩ := chk_step h.t (.fire (s.own j w) (.val (dec x)))
      obtain ⟨tops, hto⟩ := h.t
      have hst : (s.T.coro (s.own j w)).status = .waitExt := by rw [← hlf, hto]; exact ((Task.exec_linv P tops).life _).symm
      have hf := Task.ext_fire P s.T (s.own j w) (.val (dec x)) hT hm hst
      rw [hf] at hc
      refine ⟨ht, upd_run h.so j _, fun h0 => upd_ub hub j _ h0, fun _ => upd_now (h.n hs) j _ ho, ?_⟩
      dsimp only
      rw [upd_log, hf, hl, new_append]
      exact h.j.wake hc rfl ⟨_, _, _, _, _, hp⟩

theorem winv_step {P : Task.Prog σ V E} {dec : Option α → V} {s : State σ V E α} (h : WInv P dec s) (op : Op σ V E α) : WInv P dec (step P dec s op) := by
  unfold step
  split
  · exact h
  · rename_i hn
    have hs : s.stop = false := by cases hx : s.stop <;> simp_all
    have hT : s.T.ub = none := by cases hx : s.T.ub <;> simp_all
    have hub := h.u hs
    cases op with
    | task op aim =>
      dsimp only
      split
      · exact h
      · rename_i hf
        exact h.goOn hs op aim (by rintro c r rfl; simp [isFire] at hf)
    | other c r =>
      dsimp only
      split
      · rename_i hat
        obtain ⟨hc, ht⟩ := chk_step h.t (.fire c r)
        refine ⟨ht, h.so, h.u, h.n, ?_⟩
        dsimp only
        rcases Task.ext_fire_cases P s.T c r with hl | hl
        · rw [hl, new_same]; simpa using h.j
        · rw [hl] at hc
          rw [hl, new_append]; exact h.j.done hc hat
      · exact h
    | emit j th a =>
      obtain ⟨h1, h2⟩ := Sig.log_emit (s.S j) th a
      exact h.quiet hs j _ (by simp) h1 (h2.imp id fun h => ⟨_, h, .inl ⟨_, _, rfl⟩⟩)
    | destroy j =>
      obtain ⟨h1, h2⟩ := Sig.log_destroy (s.S j)
      exact h.quiet hs j _ (by simp) h1 (h2.imp id fun h => ⟨_, h, .inr rfl⟩)
    | process j =>
      dsimp only
      split
      · rename_i hm
        exact h.wake hs hm hT j _ (by simp) ((Sig.log_process (s.S j) 0).imp id fun ⟨w, x, h⟩ => ⟨w, _, x, _, h⟩)
      · exact h
    | fire j w =>
      dsimp only
      split
      · rename_i hm
        exact h.wake hs hm hT j _ (by simp) ((Sig.log_fire (s.S j) w).imp id fun ⟨th, x, h⟩ => ⟨w, th, x, _, h⟩)
      · exact h
    | time d =>
      refine ⟨h.t, fun j => ?_, fun _ j => ?_, fun _ i j => ?_, ?_⟩
      · obtain ⟨sops, hso⟩ := h.so j
        exact ⟨sops ++ [.time d], by dsimp only; rw [Sig.exec_snoc, hso]⟩
      · dsimp only; rw [(Sig.log_time _ d).2, hub]
      · dsimp only; simp only [Sig.step, hub, Option.isSome_none, Bool.false_eq_true, if_false]; rw [h.n hs i j]
      · dsimp only
        rw [show (fun j => (Sig.step (s.S j) (.time d)).log) = fun j => (s.S j).log from funext fun j => (Sig.log_time _ d).1]
        exact h.j

theorem winv_exec (P : Task.Prog σ V E) (dec : Option α → V) (ops : List (Op σ V E α)) : WInv P dec (exec P dec ops) := by
  induction ops using snocInd with
  | nil => exact winv_init P dec
  | snoc ops op ih => rw [exec_snoc]; exact winv_step ih op

end QCoro.World
