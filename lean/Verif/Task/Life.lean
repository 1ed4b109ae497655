import Verif.Task.Eff2

/-! Consequences of trace legality for one coroutine, and where handles come from. -/
namespace QCoro.Task
variable {σ V E : Type}

theorem Chk.prefix {ok : List (Ev V E) → Ev V E → Prop} {l l'} (h : Chk ok (l ++ l')) : Chk ok l := by
  intro pre e post hp
  refine h pre e (post ++ l') ?_
  rw [hp]; simp

/-- `done` is for ever. -/
theorem life_done_stays {P : Prog σ V E} {c : Nat} {l l' : List (Ev V E)} (h : Chk (legal P) (l ++ l')) (hd : life c l = .done) :
    life c (l ++ l') = .done := by
  rw [← List.reverse_reverse l'] at h ⊢
  generalize l'.reverse = r at h
  induction r with
  | nil => simpa using hd
  | cons e r ih =>
    rw [List.reverse_cons, ← List.append_assoc] at h ⊢
    have hx := ih h.prefix
    have hl := h (l ++ r.reverse) e [] rfl
    rw [life_snoc, hx]
    cases e <;> simp only [lifeStep, legal] at hl ⊢ <;> grind

/-- A coroutine that awaits an empty Task stays suspended for ever. -/
theorem life_null_stays {P : Prog σ V E} {c : Nat} {l l' : List (Ev V E)} (h : Chk (legal P) (l ++ l')) (hd : life c l = .waitNull) :
    life c (l ++ l') = .waitNull := by
  rw [← List.reverse_reverse l'] at h ⊢
  generalize l'.reverse = r at h
  induction r with
  | nil => simpa using hd
  | cons e r ih =>
    rw [List.reverse_cons, ← List.append_assoc] at h ⊢
    have hx := ih h.prefix
    have hl := h (l ++ r.reverse) e [] rfl
    rw [life_snoc, hx]
    cases e <;> simp only [lifeStep, legal] at hl ⊢ <;> grind

/-- While `d` has not completed, whoever waits for it keeps waiting. -/
theorem life_waits {P : Prog σ V E} {a d : Nat} {l l' : List (Ev V E)} (h : Chk (legal P) (l ++ l')) (ha : life a l = .waitTask d)
    (hd : life d (l ++ l') ≠ .done) : life a (l ++ l') = .waitTask d := by
  rw [← List.reverse_reverse l'] at h hd ⊢
  generalize l'.reverse = r at h hd
  induction r with
  | nil => simpa using ha
  | cons e r ih =>
    rw [List.reverse_cons, ← List.append_assoc] at h hd ⊢
    have hd' : life d (l ++ r.reverse) ≠ .done := by
      intro hx; exact hd (life_done_stays h hx)
    have hx := ih h.prefix hd'
    have hl := h (l ++ r.reverse) e [] rfl
    rw [life_snoc, hx]
    cases e <;> simp only [lifeStep, legal] at hl ⊢ <;> grind

/-- The only way out of a `co_await` on `d` is to be resumed by `d`'s completion. -/
theorem life_woken {P : Prog σ V E} {a d : Nat} {l l' : List (Ev V E)} (h : Chk (legal P) (l ++ l')) (ha : life a l = .waitTask d)
    (hn : life a (l ++ l') ≠ .waitTask d) : ∃ r, .gotWoken a d r ∈ l' := by
  have key : ∀ r : List (Ev V E), Chk (legal P) (l ++ r.reverse) → life a (l ++ r.reverse) ≠ .waitTask d → ∃ x, .gotWoken a d x ∈ r := by
    intro r
    induction r with
    | nil => intro _ hn; simp at hn; exact absurd ha hn
    | cons e r ih =>
      intro h hn
      rw [List.reverse_cons, ← List.append_assoc] at h hn
      by_cases hx : life a (l ++ r.reverse) = .waitTask d
      · have hl := h (l ++ r.reverse) e [] rfl
        rw [life_snoc, hx] at hn
        cases e <;> simp only [lifeStep, legal] at hl hn <;> grind
      · obtain ⟨x, hx⟩ := ih h.prefix hx
        exact ⟨x, List.mem_cons_of_mem _ hx⟩
  obtain ⟨x, hx⟩ := key l'.reverse (by simpa using h) (by simpa using hn)
  exact ⟨x, by simpa using hx⟩

/-- How often an event happened. -/
def occ [DecidableEq V] [DecidableEq E] (e : Ev V E) (log : List (Ev V E)) : Nat := log.count e

/-- An event whose legality excludes an earlier occurrence happens at most once. -/
theorem once_of_legal [DecidableEq V] [DecidableEq E] {ok : List (Ev V E) → Ev V E → Prop} {log} {e : Ev V E} (h : Chk ok log)
    (hn : ∀ pre post, log = pre ++ e :: post → e ∉ pre) : log.count e ≤ 1 := by
  have key : ∀ r : List (Ev V E), (∀ pre post, r.reverse = pre ++ e :: post → e ∉ pre) → r.reverse.count e ≤ 1 := by
    intro r
    induction r with
    | nil => intro _; simp
    | cons x r ih =>
      intro hn
      rw [List.reverse_cons] at hn ⊢
      by_cases hx : x = e
      · subst hx
        have := hn r.reverse [] rfl
        rw [List.count_append, List.count_eq_zero.2 this]; simp
      · rw [List.count_append, List.count_cons_of_ne hx]
        have := ih (fun pre post hp => hn pre (post ++ [x]) (by rw [hp]; simp))
        simp only [List.count_nil]; omega
  have := key log.reverse (by simpa using hn)
  simpa using this

theorem life_unborn_stays_le {P : Prog σ V E} {c : Nat} {l l' : List (Ev V E)} (h : Chk (legal P) (l ++ l')) (hd : life c l ≠ .unborn) :
    life c (l ++ l') ≠ .unborn := by
  rw [← List.reverse_reverse l'] at h ⊢
  generalize l'.reverse = r at h
  induction r with
  | nil => simpa using hd
  | cons e r ih =>
    rw [List.reverse_cons, ← List.append_assoc] at h ⊢
    have hx := ih h.prefix
    rw [life_snoc]
    cases e <;> simp only [lifeStep] <;> grind

/-- A coroutine that has left the initial state never returns to it. -/
theorem life_started_stays {P : Prog σ V E} {c : Nat} {l l' : List (Ev V E)} (h : Chk (legal P) (l ++ l')) (hd : life c l ≠ .unborn)
    (hd2 : life c l ≠ .initial) : life c (l ++ l') ≠ .initial := by
  rw [← List.reverse_reverse l'] at h ⊢
  generalize l'.reverse = r at h
  induction r with
  | nil => simpa using hd2
  | cons e r ih =>
    rw [List.reverse_cons, ← List.append_assoc] at h ⊢
    have hx := ih h.prefix
    have hb := life_unborn_stays_le h.prefix hd
    have hl := h (l ++ r.reverse) e [] rfl
    rw [life_snoc]
    cases e <;> simp only [lifeStep, legal] at hl ⊢ <;> grind

/-! ### Handles -/

/-- A step does not invent references, and does not start a coroutine nobody refers to. -/
structure Eff3 (s s' : State σ V E) : Prop where
  hs : ∀ o h, (s'.obj o).handle = some h → s.nc ≤ h ∨ ∃ o', (s.obj o').handle = some h
  nc : s.nc ≤ s'.nc
  ini : ∀ c, c < s.nc → (s.coro c).status = .initial → (∀ o, (s.obj o).handle ≠ some c) → (s'.coro c).status = .initial

theorem Eff3.of_eq {s s' : State σ V E} (h1 : ∀ c, (s'.coro c).status = (s.coro c).status ∨ (s.coro c).status ≠ .initial)
    (h2 : ∀ o h, (s'.obj o).handle = some h → ∃ o', (s.obj o').handle = some h) (h3 : s'.nc = s.nc) : Eff3 s s' := by
  refine ⟨fun o h hh => Or.inr (h2 o h hh), Nat.le_of_eq h3.symm, ?_⟩
  intro c hc hi _
  rcases h1 c with h | h
  · rw [h, hi]
  · exact absurd hi h

theorem Eff3.refl (s : State σ V E) : Eff3 s s := Eff3.of_eq (fun _ => Or.inl rfl) (fun o _ hh => ⟨o, hh⟩) rfl

theorem Eff3.trans {a b c : State σ V E} (h : Eff3 a b) (k : Eff3 b c) : Eff3 a c := by
  obtain ⟨a1,a2,a3⟩ := h
  obtain ⟨b1,b2,b3⟩ := k
  refine ⟨?_, by omega, ?_⟩
  · intro o h hh
    rcases b1 o h hh with h' | ⟨o', h'⟩
    · left; omega
    · exact a1 o' h h'
  · intro i hi h1 h2
    refine b3 i (by omega) (a3 i hi h1 h2) ?_
    intro o ho
    rcases a1 o i ho with h' | ⟨o', h'⟩
    · omega
    · exact h2 o' h'

theorem Eff2.eff3 {s s' : State σ V E} {who} (h : Eff2 s s' who) (hw : ∀ c, who = some c → (s.coro c).status = .running) : Eff3 s s' := by
  refine ⟨h.hs, h.nc, ?_⟩
  intro c hc hi hn
  by_cases hx : who = some c
  · have := hw c hx; simp [hi] at this
  · rw [h.st c hc hx, hi]

theorem eff3_deref (s : State σ V E) (c) : Eff3 s (deref s c) := (eff2_deref s c none).eff3 (by simp)

theorem eff3_dropObj (s : State σ V E) (o) : Eff3 s (dropObj s o) := by
  have key : ∀ x : Obj, (x.handle = none ∨ x.handle = (s.obj o).handle) → Eff3 s (s.setObj o x) := by
    intro x hx
    refine Eff3.of_eq (fun _ => Or.inl rfl) ?_ rfl
    intro o' h hh
    simp only [State.setObj] at hh
    exists o'; grind
  unfold dropObj
  split
  · exact key _ (Or.inr rfl)
  · exact (key _ (Or.inl rfl)).trans (eff3_deref _ _)

theorem eff3_fail (s : State σ V E) (u) : Eff3 s (s.fail u) := Eff3.of_eq (fun _ => Or.inl rfl) (fun o _ hh => ⟨o, hh⟩) rfl

theorem eff3_awaitObj (P : Prog σ V E) (s : State σ V E) (a o priv) (ha : (s.coro a).status = .running) : Eff3 s (awaitObj P s a o priv) := by
  rcases awaitObj_cases P s a o priv with ⟨u, h⟩ | ⟨_, _, _, h⟩ | ⟨d, _, hd, _, ⟨r, _, _, h⟩ | ⟨_, _, h⟩ | ⟨hi, _, h⟩⟩ <;> rw [h]
  · exact eff3_fail _ _
  · refine Eff3.of_eq ?_ (fun o _ hh => ⟨o, hh⟩) rfl
    intro c; simp only [hungState, State.emit, State.setCoro, State.pop]; grind
  · refine Eff3.of_eq ?_ (fun o _ hh => ⟨o, hh⟩) rfl
    intro c; simp only [readyState, State.reply, State.emit, State.setCoro]; grind
  · refine Eff3.of_eq ?_ (fun o _ hh => ⟨o, hh⟩) rfl
    intro c; simp only [regState, State.emit, State.setCoro, State.pop]; grind
  · refine ⟨fun o h hh => Or.inr ⟨o, hh⟩, Nat.le_refl _, ?_⟩
    intro c hc hci hn
    have hcd : c ≠ d := by rintro rfl; exact hn o hd
    have hca : c ≠ a := by rintro rfl; simp [ha] at hci
    simp [lazyState, State.emit, State.setCoro, State.pop, State.push, hcd, hca, hci]

theorem eff3_doUser (P : Prog σ V E) (s : State σ V E) (who act) (hw : ∀ c, who = some c → (s.coro c).status = .running) :
    Eff3 s (doUser P s who act) := by
  by_cases hna : ∀ o, act ≠ .await o
  · exact (eff2_doUser P s who act hna).eff3 hw
  · simp only [Classical.not_forall, Classical.not_not] at hna
    obtain ⟨o, rfl⟩ := hna
    cases who with
    | none => exact Eff3.refl _
    | some c => exact eff3_awaitObj P s c o false (hw c rfl)

theorem eff3_waitReturn (P : Prog σ V E) (s : State σ V E) (w) : Eff3 s (waitReturn P s w) := by
  have key : ∀ (i : Resp V E) r, Eff3 s ((((s.setW w { s.wctx w with alive := false }).pop).reply (s.wctx w).caller i).emit (.waitRet w r)) := by
    intro i r
    refine Eff3.of_eq ?_ ?_ ?_
    · intro c; left
      cases (s.wctx w).caller with
      | none => rfl
      | some p => simp only [State.reply, State.emit, State.setCoro, State.pop, State.setW]; grind
    · intro o h hh; exists o
      cases hx : (s.wctx w).caller <;> rw [hx] at hh <;> exact hh
    · cases (s.wctx w).caller <;> rfl
  unfold waitReturn
  dsimp only
  split
  · exact key _ _
  · split
    · exact key _ _
    · exact eff3_fail _ _

theorem eff3_run (P : Prog σ V E) (s : State σ V E) (hc : Core s) : Eff3 s (run P s) := by
  unfold run
  split
  · exact Eff3.refl _
  · rename_i c st hst
    have hr := (hc.bodyR c).1 (by simp [bodies, hst])
    split
    · exact eff3_fail _ _
    split
    · exact eff3_fail _ _
    · rename_i code _
      dsimp only
      generalize codeNext P (s.coro c).owned code (s.coro c).inp = r
      refine Eff3.trans (b := s.setCoro c { s.coro c with code := some r.1 }) ?_ ?_
      · refine Eff3.of_eq ?_ (fun o _ hh => ⟨o, hh⟩) rfl
        intro i; simp only [State.setCoro]; grind
      generalize hs1 : s.setCoro c { s.coro c with code := some r.1 } = s1
      have hr1 : (s1.coro c).status = .running := by subst hs1; simp [State.setCoro, hr]
      have rep : ∀ i, Eff3 s1 (s1.reply (some c) i) := fun i => (eff2_reply _ _ _).eff3 (by rintro _ ⟨⟩; exact hr1)
      cases r.2 with
      | u a => exact eff3_doUser P s1 (some c) a (by rintro _ ⟨⟩; exact hr1)
      | markCb v => exact (rep .unit).trans (Eff3.of_eq (fun _ => Or.inl rfl) (fun o _ hh => ⟨o, hh⟩) rfl)
      | markErr v => exact (rep .unit).trans (Eff3.of_eq (fun _ => Or.inl rfl) (fun o _ hh => ⟨o, hh⟩) rfl)
      | ctxAlive q v =>
        simp only [doAct]
        split <;> exact (rep (.flag _)).trans (Eff3.of_eq (fun _ => Or.inl rfl) (fun o _ hh => ⟨o, hh⟩) rfl)
      | waitDone w r =>
        simp only [doAct]
        split
        · refine Eff3.trans (b := s1.reply (some c) .unit) (rep .unit) ?_
          exact Eff3.of_eq (fun _ => Or.inl rfl) (fun o _ hh => ⟨o, hh⟩) rfl
        · exact eff3_fail _ _
      | callTmp k code v =>
        refine Eff3.trans ?_ ((eff2_spawn P ((s1.setCoro c { s1.coro c with inp := .obj s1.no }).emit (.cbTask c s1.nc)) k (.user code) [] v (.tmp c) none).eff3 (by simp))
        refine Eff3.of_eq ?_ (fun o _ hh => ⟨o, hh⟩) rfl
        intro i; simp only [State.setCoro, State.emit]; grind
      | awaitTmp o => exact eff3_awaitObj P s1 c o true hr1
      | dropTmp o =>
        simp only [doAct]; split
        · exact (rep .unit).trans (eff3_dropObj _ _)
        · exact eff3_fail _ _
      | stuck => exact eff3_fail _ _
  · rename_i c st hst
    split
    · exact eff3_fail _ _
    split
    · rename_i a rest _
      dsimp only
      split
      · refine Eff3.of_eq ?_ (fun o _ hh => ⟨o, hh⟩) rfl
        intro i; simp only [State.setCoro, State.fail]; grind
      split
      · rename_i hw
        split
        · refine Eff3.of_eq ?_ (fun o _ hh => ⟨o, hh⟩) rfl
          intro i; simp only [State.setCoro, State.fail]; grind
        · refine Eff3.of_eq ?_ (fun o _ hh => ⟨o, hh⟩) rfl
          intro i; simp only [State.setCoro, State.push, State.emit] at hw ⊢; grind
      · refine Eff3.of_eq ?_ (fun o _ hh => ⟨o, hh⟩) rfl
        intro i; simp only [State.setCoro, State.fail]; grind
    · refine Eff3.trans ?_ (eff3_deref _ _)
      refine Eff3.of_eq ?_ (fun o _ hh => ⟨o, hh⟩) rfl
      intro i; simp only [State.setCoro, State.pop]; grind
  · split
    · exact Eff3.of_eq (fun _ => Or.inl rfl) (fun o _ hh => ⟨o, hh⟩) rfl
    · dsimp only; split
      · refine Eff3.trans ?_ (eff3_dropObj _ _)
        exact Eff3.of_eq (fun _ => Or.inl rfl) (fun o _ hh => ⟨o, hh⟩) rfl
      · exact Eff3.of_eq (fun _ => Or.inl rfl) (fun o _ hh => ⟨o, hh⟩) rfl
  · rename_i dst src st hst
    dsimp only; split
    · refine Eff3.of_eq (fun _ => Or.inl rfl) ?_ rfl
      intro o h hh
      simp only [State.setObj, State.pop] at hh
      split at hh
      · simp at hh
      · split at hh
        · exact ⟨src, hh⟩
        · exact ⟨o, hh⟩
    · exact Eff3.of_eq (fun _ => Or.inl rfl) (fun o _ hh => ⟨o, hh⟩) rfl
  · dsimp only; split
    · refine Eff3.trans ?_ (eff3_dropObj _ _)
      exact Eff3.of_eq (fun _ => Or.inl rfl) (fun o _ hh => ⟨o, hh⟩) rfl
    · exact Eff3.of_eq (fun _ => Or.inl rfl) (fun o _ hh => ⟨o, hh⟩) rfl
  · split
    · exact eff3_waitReturn P s _
    · exact Eff3.of_eq (fun _ => Or.inl rfl) (fun o _ hh => ⟨o, hh⟩) rfl
  · split
    · exact eff3_waitReturn P s _
    · exact Eff3.refl _

theorem eff3_step (P : Prog σ V E) (s : State σ V E) (op) (hc : Core s) : Eff3 s (step P s op) := by
  unfold step
  split
  · exact Eff3.refl _
  cases op with
  | run => exact eff3_run P s hc
  | main a =>
    dsimp only; split
    · exact eff3_doUser P s none a (by simp)
    · exact Eff3.refl _
  | fire c r =>
    dsimp only; split
    · rename_i hx
      simp only [Bool.and_eq_true, decide_eq_true_eq] at hx
      refine Eff3.of_eq ?_ (fun o _ hh => ⟨o, hh⟩) rfl
      intro i; simp only [State.setCoro, State.push, State.emit]; grind
    · exact Eff3.refl _
  | exitLoop w =>
    dsimp only; split
    · exact Eff3.of_eq (fun _ => Or.inl rfl) (fun o _ hh => ⟨o, hh⟩) rfl
    · exact Eff3.refl _

end QCoro.Task
