import Verif.Task.LogInv

/-! What actions do to the trace, to other coroutines, and where handles come from. -/
namespace QCoro.Task
variable {σ V E : Type}

/-- Events an API action of `who` can cause. -/
def evOK (who : Option Nat) : Ev V E → Prop
  | .extSusp a => who = some a
  | .extRes a _ => who = some a
  | .finished a _ => who = some a
  | .note a _ => who = a
  | .spawned _ _ => True
  | .started _ => True
  | .destroyed _ => True
  | .thenMade _ _ _ => True
  | .ready _ _ _ => True
  | .waitCall _ _ _ => True
  | .ctxDel _ => True
  | _ => False

structure Eff2 (s s' : State σ V E) (who : Option Nat) : Prop where
  log : ∃ evs, s'.log = s.log ++ evs ∧ ∀ e ∈ evs, evOK who e
  inp : ∀ c, c < s.nc → who ≠ some c → (s'.coro c).inp = (s.coro c).inp
  st : ∀ c, c < s.nc → who ≠ some c → (s'.coro c).status = (s.coro c).status
  hs : ∀ o h, (s'.obj o).handle = some h → s.nc ≤ h ∨ ∃ o', (s.obj o').handle = some h
  par : ∀ o, o < s.no → (s.obj o).owner ≠ .user → s'.obj o = s.obj o
  nc : s.nc ≤ s'.nc
  no : s.no ≤ s'.no
  owner : ∀ o, o < s.no → (s'.obj o).owner = (s.obj o).owner

theorem Eff2.refl (s : State σ V E) (who) : Eff2 s s who := by
  refine ⟨⟨[], by simp⟩, fun _ _ _ => rfl, fun _ _ _ => rfl, fun o h hh => Or.inr ⟨o, hh⟩, fun _ _ _ => rfl,
    Nat.le_refl _, Nat.le_refl _, fun _ _ => rfl⟩

theorem Eff2.of_eq {s s' : State σ V E} {who} (h1 : s'.log = s.log) (h2 : s'.coro = s.coro) (h3 : s'.obj = s.obj)
    (h4 : s'.nc = s.nc) (h5 : s'.no = s.no) : Eff2 s s' who := by
  refine ⟨⟨[], by simp [h1]⟩, fun _ _ _ => by rw [h2], fun _ _ _ => by rw [h2], fun o h hh => Or.inr ⟨o, by rw [← h3]; exact hh⟩,
    fun _ _ _ => by rw [h3], Nat.le_of_eq h4.symm, Nat.le_of_eq h5.symm, fun _ _ => by rw [h3]⟩

theorem Eff2.trans {a b c : State σ V E} {who} (h : Eff2 a b who) (k : Eff2 b c who) : Eff2 a c who := by
  obtain ⟨⟨e1, x1, y1⟩,a2,a3,a4,a5,a6,a7,a8⟩ := h
  obtain ⟨⟨e2, x2, y2⟩,b2,b3,b4,b5,b6,b7,b8⟩ := k
  constructor
  · refine ⟨e1 ++ e2, by rw [x2, x1, List.append_assoc], ?_⟩
    intro e he; simp at he; rcases he with he | he
    · exact y1 e he
    · exact y2 e he
  · intro i hi hw; rw [b2 i (by omega) hw, a2 i hi hw]
  · intro i hi hw; rw [b3 i (by omega) hw, a3 i hi hw]
  · intro o h hh
    rcases b4 o h hh with h' | ⟨o', h'⟩
    · left; omega
    · exact a4 o' h h'
  · intro o ho hc; rw [b5 o (by omega) (by rw [a8 o ho]; exact hc), a5 o ho hc]
  · omega
  · omega
  · intro o ho; rw [b8 o (by omega), a8 o ho]

theorem Eff2.emit {s s' : State σ V E} {who} (h : Eff2 s s' who) {e} (he : evOK who e) : Eff2 s (s'.emit e) who := by
  obtain ⟨⟨e1, x1, y1⟩,a2,a3,a4,a5,a6,a7,a8⟩ := h
  refine ⟨⟨e1 ++ [e], by simp [State.emit, x1], ?_⟩,a2,a3,a4,a5,a6,a7,a8⟩
  intro e' he'; simp at he'; rcases he' with h | rfl
  · exact y1 e' h
  · exact he

theorem Eff2.then {a b c : State σ V E} {who} (h : Eff2 a b who) (h1 : c.log = b.log) (h2 : c.coro = b.coro) (h3 : c.obj = b.obj)
    (h4 : c.nc = b.nc) (h5 : c.no = b.no) : Eff2 a c who := h.trans (Eff2.of_eq h1 h2 h3 h4 h5)

theorem eff2_setCoro {s : State σ V E} {who c} {x : Coro σ V E} (h : who = some c ∨ (x.inp = (s.coro c).inp ∧ x.status = (s.coro c).status)) :
    Eff2 s (s.setCoro c x) who := by
  constructor <;> simp only [State.setCoro]
  · exact ⟨[], by simp⟩
  · grind
  · grind
  · intro o h hh; exact Or.inr ⟨o, hh⟩
  · simp
  · simp
  · simp
  · simp

theorem eff2_reply (s : State σ V E) (who i) : Eff2 s (s.reply who i) who := by
  cases who with
  | none => exact Eff2.refl _ _
  | some c => exact eff2_setCoro (Or.inl rfl)

theorem eff2_deref (s : State σ V E) (c who) : Eff2 s (deref s c) who := by
  unfold deref
  split
  · exact Eff2.of_eq rfl rfl rfl rfl rfl
  split
  · exact Eff2.of_eq rfl rfl rfl rfl rfl
  · split
    · exact Eff2.of_eq rfl rfl rfl rfl rfl
    · refine Eff2.then (b := (s.setCoro c { s.coro c with rc := 0, freed := true }).emit (.destroyed c)) ?_ rfl rfl rfl rfl rfl
      refine Eff2.emit (e := .destroyed c) ?_ trivial
      exact eff2_setCoro (Or.inr ⟨rfl, rfl⟩)
  · exact eff2_setCoro (Or.inr ⟨rfl, rfl⟩)

/-- Emptying or killing a user's object. -/
theorem eff2_clear {s : State σ V E} {o who} {x : Obj} (h1 : x.owner = (s.obj o).owner) (h2 : x.handle = none ∨ x.handle = (s.obj o).handle)
    (h3 : (s.obj o).owner = .user) : Eff2 s (s.setObj o x) who := by
  constructor <;> simp only [State.setObj]
  · exact ⟨[], by simp⟩
  · grind
  · grind
  · intro i h hh; right; exists i; grind
  · grind
  · simp
  · simp
  · grind

theorem eff2_dropObj (s : State σ V E) (o who) (h : (s.obj o).owner = .user) : Eff2 s (dropObj s o) who := by
  unfold dropObj
  split
  · exact eff2_clear rfl (Or.inr rfl) h
  · exact (eff2_clear (who := who) (by rfl) (Or.inl rfl) h).trans (eff2_deref _ _ _)

theorem eff2_moveObj (s : State σ V E) (o own who) (h : (s.obj o).owner = .user) : Eff2 s (moveObj s o own) who := by
  unfold moveObj
  constructor <;> simp only [State.setObj]
  · exact ⟨[], by simp⟩
  · grind
  · grind
  · intro i h hh
    right
    split at hh
    · exact ⟨o, hh⟩
    · split at hh
      · simp at hh
      · exact ⟨i, hh⟩
  · grind
  · simp
  · omega
  · grind

theorem eff2_spawn (P : Prog σ V E) (s : State σ V E) (k code ps v own who) : Eff2 s (spawn P s k code ps v own) who := by
  unfold spawn
  cases k <;> constructor <;> simp only [State.push, State.emit, State.setObj, State.setCoro]
  case eager.log => exact ⟨[_, _], by simp; exact ⟨rfl, rfl⟩, by simp [evOK]⟩
  case lazy.log => exact ⟨[_], rfl, by simp [evOK]⟩
  case eager.hs =>
    intro i h hh; split at hh
    · simp at hh; left; omega
    · right; exact ⟨i, hh⟩
  case lazy.hs =>
    intro i h hh; split at hh
    · simp at hh; left; omega
    · right; exact ⟨i, hh⟩
  all_goals grind

theorem usable_np {s : State σ V E} {o} (h : s.usable false o = true) : (s.obj o).owner = .user := usable_user h

theorem eff2_moveArgs (as : List Nat) (who) : ∀ s : State σ V E, Eff2 s (moveArgs s as).1 who := by
  induction as with
  | nil => intro s; exact Eff2.refl _ _
  | cons a as ih =>
    intro s
    simp only [moveArgs]
    split
    · rename_i hx
      exact (eff2_moveObj s a .user who (usable_np hx)).trans (ih _)
    · exact Eff2.of_eq rfl rfl rfl rfl rfl

/-- The state after `co_await` on a completed task `d` with stored outcome `r`. -/
def readyState (P : Prog σ V E) (s : State σ V E) (a d : Nat) (r : Res V E) : State σ V E :=
  ((s.setCoro d { s.coro d with result := some (afterRead P r) }).reply (some a) (.res r)).emit (.gotReady a d r)

/-- The state after `co_await` on an unfinished Task `d`. -/
def regState (s : State σ V E) (a d : Nat) : State σ V E :=
  let s := s.setCoro d { s.coro d with awaiters := (s.coro d).awaiters ++ [a] }
  let s := s.setCoro a { s.coro a with status := .waitTask d }
  (s.emit (.awaitReg a d)).pop

/-- The state after `co_await` on a LazyTask `d` that was not started. -/
def lazyState (s : State σ V E) (a d : Nat) : State σ V E :=
  let s := s.setCoro d { s.coro d with awaiters := (s.coro d).awaiters ++ [a], status := .running }
  let s := s.setCoro a { s.coro a with status := .waitTask d }
  (((s.emit (.awaitReg a d)).pop).emit (.started d)).push (.body d)

/-- The state after `co_await` on an empty Task. -/
def hungState (s : State σ V E) (a : Nat) : State σ V E :=
  ((s.setCoro a { s.coro a with status := .waitNull }).emit (.hung a)).pop

/-- All outcomes of `co_await`. -/
theorem awaitObj_cases (P : Prog σ V E) (s : State σ V E) (a o priv) :
    (∃ u, awaitObj P s a o priv = s.fail u) ∨
    (s.usable priv o = true ∧ (s.obj o).handle = none ∧ (s.obj o).kind = .eager ∧ awaitObj P s a o priv = hungState s a) ∨
    (∃ d, s.usable priv o = true ∧ (s.obj o).handle = some d ∧ (s.coro d).freed = false ∧
      ((∃ r, (s.coro d).status = .done ∧ (s.coro d).result = some r ∧ awaitObj P s a o priv = readyState P s a d r) ∨
       ((s.coro d).status ≠ .done ∧ (s.obj o).kind = .eager ∧ awaitObj P s a o priv = regState s a d) ∨
       ((s.coro d).status = .initial ∧ (s.obj o).kind = .lazy ∧ awaitObj P s a o priv = lazyState s a d))) := by
  unfold awaitObj
  split
  · rename_i hus
    split
    · rename_i hh
      split
      · rename_i hk; right; left; exact ⟨hus, hh, hk, rfl⟩
      · exact Or.inl ⟨_, rfl⟩
    · rename_i d hd
      split
      · exact Or.inl ⟨_, rfl⟩
      rename_i hfr
      split
      · rename_i hdn
        split
        · exact Or.inl ⟨_, rfl⟩
        · rename_i r hr
          right; right
          exact ⟨d, hus, hd, by simpa using hfr, Or.inl ⟨r, hdn, hr, rfl⟩⟩
      · rename_i hdn
        split
        · rename_i hk
          right; right
          exact ⟨d, hus, hd, by simpa using hfr, Or.inr (Or.inl ⟨hdn, hk, rfl⟩)⟩
        · rename_i hk
          split
          · rename_i hin
            right; right
            exact ⟨d, hus, hd, by simpa using hfr, Or.inr (Or.inr ⟨hin, hk, rfl⟩)⟩
          · exact Or.inl ⟨_, rfl⟩
  · exact Or.inl ⟨_, rfl⟩

theorem readyState_log (P : Prog σ V E) (s : State σ V E) (a d r) : (readyState P s a d r).log = s.log ++ [.gotReady a d r] := rfl

theorem eff2_finish (s : State σ V E) (c r) : Eff2 s (finish s c r) (some c) := by
  unfold finish
  refine Eff2.then (b := (s.setCoro c _).emit (.finished c r)) ?_ rfl rfl rfl rfl rfl
  exact Eff2.emit (e := .finished c r) (eff2_setCoro (Or.inl rfl)) rfl

set_option maxHeartbeats 1000000 in
theorem eff2_doUser (P : Prog σ V E) (s : State σ V E) (who act) (hna : ∀ o, act ≠ .await o) : Eff2 s (doUser P s who act) who := by
  have hf : ∀ u, Eff2 s (s.fail u) who := fun u => Eff2.of_eq rfl rfl rfl rfl rfl
  cases act with
  | ret v => cases who with | none => exact Eff2.refl _ _ | some c => exact eff2_finish _ _ _
  | throw v => cases who with | none => exact Eff2.refl _ _ | some c => exact eff2_finish _ _ _
  | call k code v args =>
    simp only [doUser]
    split
    · exact eff2_moveArgs _ _ _
    · refine (eff2_moveArgs args who s).trans (Eff2.trans ?_ (eff2_spawn _ _ _ _ _ _ _ _))
      cases who with
      | none => exact Eff2.refl _ _
      | some p => exact eff2_setCoro (Or.inl rfl)
  | await o => exact absurd rfl (hna o)
  | awaitExt now =>
    cases who with
    | none => cases now <;> exact Eff2.refl _ _
    | some c =>
      cases now with
      | some r => exact (((Eff2.refl s (some c)).emit (e := .extSusp c) rfl).emit (e := .extRes c r) rfl).trans (eff2_reply _ (some c) (.res r))
      | none =>
      refine Eff2.then (b := (s.setCoro c { s.coro c with status := .waitExt }).emit (.extSusp c)) ?_ rfl rfl rfl rfl rfl
      exact (eff2_setCoro (Or.inl rfl)).emit rfl
  | drop o =>
    simp only [doUser]
    split
    · rename_i hx
      exact (eff2_reply _ _ _).trans (eff2_dropObj _ _ _ (by simpa using usable_np hx))
    · exact hf _
  | moveNew o =>
    simp only [doUser]
    split
    · rename_i hx
      exact (eff2_reply _ _ _).trans (eff2_moveObj _ _ _ _ (by simpa using usable_np hx))
    · exact hf _
  | moveAssign dst src =>
    simp only [doUser]
    split
    · rename_i hx
      simp only [Bool.and_eq_true, decide_eq_true_eq] at hx
      split
      · exact eff2_reply _ _ _
      · split
        · exact (eff2_reply s who .unit).then rfl rfl rfl rfl rfl
        · refine Eff2.trans ?_ (eff2_deref _ _ _)
          refine Eff2.then (b := (s.reply who .unit).setObj dst _) ?_ rfl rfl rfl rfl rfl
          exact (eff2_reply s who .unit).trans (eff2_clear rfl (Or.inl rfl) (by simpa using usable_np hx.1.1))
    · exact hf _
  | mkNull k =>
    simp only [doUser]
    refine Eff2.trans ?_ (eff2_reply _ _ _)
    constructor <;> simp only [State.setObj]
    · exact ⟨[], by simp⟩
    · simp
    · simp
    · intro i h hh
      split at hh
      · simp at hh
      · exact Or.inr ⟨i, hh⟩
    · grind
    · simp
    · omega
    · grind
  | isReady o =>
    simp only [doUser]
    split
    · split
      · exact (eff2_reply _ _ _).emit trivial
      · split
        · exact hf _
        · exact (eff2_reply _ _ _).emit trivial
    · exact hf _
  | waitFor o b =>
    simp only [doUser]
    split
    · refine Eff2.trans ?_ (eff2_spawn _ _ _ _ _ _ _ _)
      refine Eff2.then (b := s.emit (.waitCall s.nw s.nc (s.aim o))) ?_ rfl rfl rfl rfl rfl
      exact (Eff2.refl _ _).emit trivial
    · exact hf _
  | thenL o cfg =>
    simp only [doUser]
    split
    · refine Eff2.trans (Eff2.trans ?_ (eff2_reply _ _ _)) (eff2_spawn _ _ _ _ _ _ _ _)
      exact (Eff2.refl _ _).emit trivial
    · exact hf _
  | thenR o cfg =>
    simp only [doUser]
    split
    · rename_i hx
      refine Eff2.trans (Eff2.trans (Eff2.trans ?_ (eff2_moveObj (s.emit (.thenMade s.nc (s.obj o).handle (cfg.plain.info true))) o _ _ (usable_np (s := s) hx))) (eff2_reply _ _ _)) (eff2_spawn _ _ _ _ _ _ _ _)
      exact Eff2.emit (e := .thenMade s.nc (s.obj o).handle (cfg.plain.info true)) (Eff2.refl _ _) trivial
    · exact hf _
  | connect o q code =>
    simp only [doUser]
    split
    · refine Eff2.trans ?_ (eff2_spawn _ _ _ _ _ _ _ _)
      refine Eff2.then (b := (s.emit (.thenMade s.nc (s.obj o).handle ⟨false, some q, false, false⟩)).reply who .unit) ?_ rfl rfl rfl rfl rfl
      exact Eff2.trans (Eff2.emit (e := .thenMade s.nc (s.obj o).handle ⟨false, some q, false, false⟩) (Eff2.refl _ _) trivial) (eff2_reply _ _ _)
    · exact hf _
  | delCtx q =>
    simp only [doUser]
    refine Eff2.emit (Eff2.trans ?_ (eff2_reply _ _ _)) trivial
    exact Eff2.of_eq rfl rfl rfl rfl rfl
  | note q => exact (eff2_reply _ _ _).emit rfl

theorem regState_log (s : State σ V E) (a d) : (regState s a d).log = s.log ++ [.awaitReg a d] := rfl
theorem lazyState_log (s : State σ V E) (a d) : (lazyState s a d).log = s.log ++ [.awaitReg a d, .started d] := by
  simp [lazyState, State.push, State.emit, State.pop, State.setCoro]
theorem hungState_log (s : State σ V E) (a) : (hungState s a).log = s.log ++ [.hung a] := rfl

theorem awaitObj_log (P : Prog σ V E) (s : State σ V E) (a o priv) : ∃ evs, (awaitObj P s a o priv).log = s.log ++ evs := by
  rcases awaitObj_cases P s a o priv with ⟨u, h⟩ | ⟨_, _, _, h⟩ | ⟨d, _, _, _, ⟨r, _, _, h⟩ | ⟨_, _, h⟩ | ⟨_, _, h⟩⟩ <;> rw [h]
  · exact ⟨[], by simp [State.fail]⟩
  · exact ⟨_, hungState_log _ _⟩
  · exact ⟨_, readyState_log _ _ _ _ _⟩
  · exact ⟨_, regState_log _ _ _⟩
  · exact ⟨_, lazyState_log _ _ _⟩

theorem doUser_log (P : Prog σ V E) (s : State σ V E) (who act) : ∃ evs, (doUser P s who act).log = s.log ++ evs := by
  by_cases hna : ∀ o, act ≠ .await o
  · obtain ⟨e, h, _⟩ := (eff2_doUser P s who act hna).log; exact ⟨e, h⟩
  · simp only [Classical.not_forall, Classical.not_not] at hna
    obtain ⟨o, rfl⟩ := hna
    cases who with
    | none => exact ⟨[], by simp [doUser]⟩
    | some c => exact awaitObj_log P s c o false

/-- Every step only appends to the trace. -/
theorem run_log (P : Prog σ V E) (s : State σ V E) : ∃ evs, (run P s).log = s.log ++ evs := by
  have dr : ∀ (t : State σ V E) c, ∃ evs, (deref t c).log = t.log ++ evs := fun t c => by
    obtain ⟨e, h, _⟩ := (eff2_deref t c none).log; exact ⟨e, h⟩
  have dob : ∀ (t : State σ V E) o, ∃ evs, (dropObj t o).log = t.log ++ evs := fun t o => by
    unfold dropObj; split
    · exact ⟨[], by simp [State.setObj]⟩
    · exact dr _ _
  have nil : ∀ t : State σ V E, t.log = s.log → ∃ evs, t.log = s.log ++ evs := fun t h => ⟨[], by simp [h]⟩
  have wr : ∀ w, ∃ evs, (waitReturn P s w).log = s.log ++ evs := by
    intro w; unfold waitReturn; dsimp only; split
    · exact ⟨[.waitRet w _], by simp [State.emit, State.pop, State.setW]; rfl⟩
    · split
      · exact ⟨[.waitRet w _], by simp [State.emit, State.pop, State.setW]; rfl⟩
      · exact nil _ rfl
  unfold run
  split
  · exact nil _ rfl
  · split
    · exact nil _ rfl
    split
    · exact nil _ rfl
    · rename_i c _ _ _ _ code _
      dsimp only
      generalize codeNext P (s.coro c).owned code (s.coro c).inp = r
      generalize hs1 : s.setCoro c { s.coro c with code := some r.1 } = s1
      have hl : s1.log = s.log := by subst hs1; rfl
      rw [← hl]
      cases r.2 with
      | u a => exact doUser_log P s1 (some c) a
      | markCb v => exact ⟨[_], rfl⟩
      | markErr v => exact ⟨[_], rfl⟩
      | ctxAlive q v => simp only [doAct]; split <;> exact ⟨[_], rfl⟩
      | waitDone w r => simp only [doAct]; split <;> exact ⟨[], by simp [State.setW, State.fail]⟩
      | callTmp k code v =>
        obtain ⟨e, h, _⟩ := (eff2_spawn P ((s1.setCoro c { s1.coro c with inp := .obj s1.no }).emit (.cbTask c s1.nc)) k (.user code) [] v (.tmp c) none).log
        refine ⟨.cbTask c s1.nc :: e, ?_⟩
        have h3 : (doAct P s1 c (.callTmp k code v)).log = _ := h
        rw [h3]; simp [State.emit, State.setCoro]
      | awaitTmp o => exact awaitObj_log P s1 c o true
      | dropTmp o =>
        simp only [doAct]; split
        · obtain ⟨e, h⟩ := dob (s1.reply (some c) .unit) o; exact ⟨e, by rw [h]; rfl⟩
        · exact ⟨[], by simp [State.fail]⟩
      | stuck => exact ⟨[], by simp [doAct, State.fail]⟩
  · split
    · exact nil _ rfl
    split
    · dsimp only
      split
      · exact nil _ rfl
      split
      · split
        · exact nil _ rfl
        · exact ⟨[_], rfl⟩
      · exact nil _ rfl
    · exact dr _ _
  · split
    · exact nil _ rfl
    · dsimp only; split
      · exact dob _ _
      · exact nil _ rfl
  · dsimp only; split <;> exact nil _ rfl
  · dsimp only; split
    · exact dob _ _
    · exact nil _ rfl
  · split
    · exact wr _
    · exact ⟨[_], rfl⟩
  · split
    · exact wr _
    · exact nil _ rfl

theorem step_log (P : Prog σ V E) (s : State σ V E) (op) : ∃ evs, (step P s op).log = s.log ++ evs := by
  have nil : ∀ t : State σ V E, t.log = s.log → ∃ evs, t.log = s.log ++ evs := fun t h => ⟨[], by simp [h]⟩
  unfold step
  split
  · exact nil _ rfl
  cases op with
  | run => exact run_log P s
  | main a =>
    dsimp only; split
    · exact doUser_log P s none a
    · exact nil _ rfl
  | fire c r =>
    dsimp only; split
    · exact ⟨[_], rfl⟩
    · exact nil _ rfl
  | exitLoop w =>
    dsimp only; split
    · exact ⟨[_], rfl⟩
    · exact nil _ rfl

/-- The trace of a longer schedule extends the trace of a shorter one. -/
theorem exec_log (P : Prog σ V E) (ops ops') : ∃ evs, (exec P (ops ++ ops')).log = (exec P ops).log ++ evs := by
  rw [← List.reverse_reverse ops']
  generalize ops'.reverse = r
  induction r with
  | nil => exact ⟨[], by simp⟩
  | cons op r ih =>
    obtain ⟨e, h⟩ := ih
    rw [List.reverse_cons, ← List.append_assoc, exec_snoc]
    obtain ⟨e', h'⟩ := step_log P (exec P (ops ++ r.reverse)) op
    exact ⟨e ++ e', by rw [h', h, List.append_assoc]⟩

end QCoro.Task
