import Verif.Task.Steps
import Verif.Task.ThenSpec
import Verif.Task.TalkSpec

/-! What one step of the machine means for one coroutine: the coroutine acts itself, is resumed, is answered, or is not concerned. -/
namespace QCoro.Task
variable {σ V E : Type}

@[simp] theorem hist_nil (t) : hist t ([] : List (Ev V E)) = [] := rfl
theorem hist_append (t) (l m : List (Ev V E)) : hist t (l ++ m) = hist t l ++ hist t m := by simp [hist]
theorem hist_snoc (t) (l : List (Ev V E)) (e) : hist t (l ++ [e]) = hist t l ++ (hev t e).toList := by
  simp only [hist, List.filterMap_append]; cases h : hev t e <;> simp [h]
theorem hist_quiet {t} {l m : List (Ev V E)} (h : ∀ e ∈ m, hev t e = none) : hist t (l ++ m) = hist t l := by
  rw [hist_append]
  have : hist t m = [] := by rw [hist, List.filterMap_eq_nil_iff]; exact h
  rw [this, List.append_nil]

theorem evOK.hev {who t} {e : Ev V E} (h : evOK who e) (ht : who ≠ some t) : hev t e = none := by
  cases e <;> simp_all [evOK, Task.hev]

/-- The step does not concern `t`, except that somebody may have started it. -/
structure Keep (t : Nat) (s s' : State σ V E) : Prop where
  code : (s'.coro t).code = (s.coro t).code
  inp : (s'.coro t).inp = (s.coro t).inp
  owned : (s'.coro t).owned = (s.coro t).owned
  kind : (s'.coro t).kind = (s.coro t).kind
  status : (s'.coro t).status = (s.coro t).status ∨ ((s.coro t).status = .initial ∧ (s'.coro t).status = .running ∧ ∃ st, s'.stack = .body t :: st)
  hist : hist t s'.log = hist t s.log

theorem Keep.refl (t) (s : State σ V E) : Keep t s s := ⟨rfl, rfl, rfl, rfl, .inl rfl, rfl⟩

/-- Everything but the start of a coroutine. -/
structure Keep0 (t : Nat) (s s' : State σ V E) : Prop where
  code : (s'.coro t).code = (s.coro t).code
  inp : (s'.coro t).inp = (s.coro t).inp
  owned : (s'.coro t).owned = (s.coro t).owned
  kind : (s'.coro t).kind = (s.coro t).kind
  status : (s'.coro t).status = (s.coro t).status
  hist : Task.hist t s'.log = Task.hist t s.log

theorem Keep0.keep {t} {s s' : State σ V E} (h : Keep0 t s s') : Keep t s s' := ⟨h.code, h.inp, h.owned, h.kind, .inl h.status, h.hist⟩
theorem Keep0.refl (t) (s : State σ V E) : Keep0 t s s := ⟨rfl, rfl, rfl, rfl, rfl, rfl⟩
theorem Keep0.trans {t} {a b c : State σ V E} (h : Keep0 t a b) (k : Keep0 t b c) : Keep0 t a c :=
  ⟨k.code.trans h.code, k.inp.trans h.inp, k.owned.trans h.owned, k.kind.trans h.kind, k.status.trans h.status, k.hist.trans h.hist⟩
theorem Keep0.of_eq {t} {s s' : State σ V E} (h : s'.coro t = s.coro t) (hl : s'.log = s.log) : Keep0 t s s' := by
  constructor <;> first | rw [h] | rw [hl]
theorem Keep0.emit {t} {s s' : State σ V E} (h : Keep0 t s s') {e} (he : hev t e = none) : Keep0 t s (s'.emit e) := by
  refine ⟨h.code, h.inp, h.owned, h.kind, h.status, ?_⟩
  rw [← h.hist]; simp only [State.emit]; rw [hist_snoc, he]; simp
theorem keep0_setCoro {t c} {s : State σ V E} (x) (h : c ≠ t) : Keep0 t s (s.setCoro c x) :=
  Keep0.of_eq (by simp [State.setCoro, Ne.symm h]) rfl

theorem keep0_deref (s : State σ V E) (c t) : Keep0 t s (deref s c) := by
  have key : ∀ (x : Coro σ V E), x.code = (s.coro c).code → x.inp = (s.coro c).inp → x.owned = (s.coro c).owned →
      x.kind = (s.coro c).kind → x.status = (s.coro c).status → Keep0 t s (s.setCoro c x) := by
    intro x h1 h2 h3 h4 h5
    constructor <;> simp only [State.setCoro] <;> grind
  unfold deref
  split
  · exact Keep0.of_eq rfl rfl
  split
  · exact Keep0.of_eq rfl rfl
  · split
    · exact Keep0.of_eq rfl rfl
    · refine Keep0.trans ?_ (Keep0.of_eq (s := (s.setCoro c { s.coro c with rc := 0, freed := true }).emit (.destroyed c)) rfl rfl)
      exact Keep0.emit (s' := s.setCoro c { s.coro c with rc := 0, freed := true }) (e := .destroyed c) (key _ rfl rfl rfl rfl rfl) rfl
  · exact key _ rfl rfl rfl rfl rfl

theorem keep0_dropObj (s : State σ V E) (o t) : Keep0 t s (dropObj s o) := by
  unfold dropObj
  split
  · exact Keep0.of_eq rfl rfl
  · exact Keep0.trans (Keep0.of_eq (s := s) (s' := s.setObj o { s.obj o with alive := false, handle := none }) rfl rfl) (keep0_deref _ _ _)

theorem keep0_reply {s : State σ V E} {who t} (h : who ≠ some t) (i) : Keep0 t s (s.reply who i) := by
  cases who with
  | none => exact Keep0.refl _ _
  | some c => exact keep0_setCoro _ (by simpa using h)

theorem keep_spawn (P : Prog σ V E) (s : State σ V E) (k code ps v own) {t} (ht : t < s.nc) : Keep0 t s (spawn P s k code ps v own) := by
  unfold spawn
  have hne : s.nc ≠ t := by omega
  have h1 := keep0_setCoro (t := t) (s := s) { kind := k, code := some code, inp := .start ps v, rc := 2, selfRef := true, owned := ps, status := match k with | .eager => .running | .lazy => .initial } hne
  cases k
  · refine Keep0.of_eq (s := ((s.setCoro s.nc { kind := .eager, code := some code, inp := .start ps v, rc := 2, selfRef := true, owned := ps, status := .running }).emit (.spawned s.nc .eager)).emit (.started s.nc)) rfl rfl |> Keep0.trans ?_
    exact (h1.emit rfl).emit rfl
  · refine Keep0.of_eq (s := (s.setCoro s.nc { kind := .lazy, code := some code, inp := .start ps v, rc := 2, selfRef := true, owned := ps, status := .initial }).emit (.spawned s.nc .lazy)) rfl rfl |> Keep0.trans ?_
    exact h1.emit rfl

theorem keep_awaitObj (P : Prog σ V E) (s : State σ V E) (a o priv) {t} (h : a ≠ t) : Keep t s (awaitObj P s a o priv) := by
  rcases awaitObj_cases P s a o priv with ⟨u, h⟩ | ⟨_, _, _, h⟩ | ⟨d, _, hd, _, ⟨r, _, _, h⟩ | ⟨_, _, h⟩ | ⟨hi, _, h⟩⟩ <;> rw [h]
  · exact (Keep0.of_eq (s := s) (s' := s.fail u) rfl rfl).keep
  · exact Keep0.keep (Keep0.trans (Keep0.emit (e := .hung a) (keep0_setCoro _ ‹a ≠ t›) (by simp [hev, ‹a ≠ t›])) (Keep0.of_eq rfl rfl))
  · constructor
    case hist => rw [readyState_log, hist_snoc]; simp [hev, ‹a ≠ t›]
    all_goals
      simp only [readyState, State.emit, State.reply, State.setCoro]
      grind
  · constructor
    case hist => rw [regState_log, hist_snoc]; simp [hev, ‹a ≠ t›]
    all_goals
      simp only [regState, State.emit, State.pop, State.setCoro]
      grind
  · constructor
    case hist => rw [lazyState_log, hist_quiet]; simp [hev, ‹a ≠ t›]
    case status =>
      by_cases htd : t = d
      · subst htd
        right
        refine ⟨hi, ?_, _, rfl⟩
        simp [lazyState, State.emit, State.pop, State.push, State.setCoro, Ne.symm ‹a ≠ t›]
      · left; simp [lazyState, State.emit, State.pop, State.push, State.setCoro, Ne.symm ‹a ≠ t›, htd]
    all_goals
      simp only [lazyState, State.emit, State.pop, State.push, State.setCoro]
      grind

/-- An API action of somebody else. -/
theorem keep_doUser (P : Prog σ V E) (s : State σ V E) (who act) {t} (ht : t < s.nc) (hw : who ≠ some t) (hna : ∀ o, act ≠ .await o) :
    Keep0 t s (doUser P s who act) := by
  have h2 := eff2_doUser P s who act hna
  have h1 := eff_doUser P s who act
  obtain ⟨evs, hl, he⟩ := h2.log
  refine ⟨h1.code t ht, h2.inp t ht hw, h1.owned t ht, h1.kind t ht, h2.st t ht hw, ?_⟩
  rw [hl]; exact hist_quiet (fun e h => (he e h).hev hw)

/-- An action of another coroutine. -/
theorem keep_doAct (P : Prog σ V E) (s : State σ V E) (a : Nat) (act : Act σ V E) {t} (ht : t < s.nc) (hat : a ≠ t) :
    Keep t s (doAct P s a act) := by
  have hw : some a ≠ some t := by simpa using hat
  cases act with
  | u act =>
    by_cases hna : ∀ o, act ≠ .await o
    · exact (keep_doUser P s _ act ht hw hna).keep
    · simp only [Classical.not_forall, Classical.not_not] at hna
      obtain ⟨o, rfl⟩ := hna
      exact keep_awaitObj P s a o false hat
  | awaitTmp o => exact keep_awaitObj P s a o true hat
  | markCb v => exact ((keep0_reply hw _).emit (e := .cb a v) (by simp [hev, hat])).keep
  | markErr v => exact ((keep0_reply hw _).emit (e := .err a v) (by simp [hev, hat])).keep
  | ctxAlive q v =>
    simp only [doAct]; split
    · exact ((keep0_reply hw _).emit (e := .cb a v) (by simp [hev, hat])).keep
    · exact ((keep0_reply hw _).emit (e := .guardDead a) (by simp [hev, hat])).keep
  | waitDone w r =>
    simp only [doAct]; split
    · exact (Keep0.trans (Keep0.of_eq (s := s) (s' := s.setW w { s.wctx w with fin := some r, exit := true }) rfl rfl) (keep0_reply hw _)).keep
    · exact (Keep0.of_eq (s := s) (s' := s.fail .waitCtxDead) rfl rfl).keep
  | callTmp k code v =>
    have h1 : Keep0 t s ((s.setCoro a { s.coro a with inp := .obj s.no }).emit (.cbTask a s.nc)) :=
      (keep0_setCoro _ hat).emit (by simp [hev, hat])
    exact (h1.trans (keep_spawn P _ k (.user code) [] v (.tmp a) ht)).keep
  | dropTmp o =>
    simp only [doAct]; split
    · exact ((keep0_reply hw _).trans (keep0_dropObj _ _ _)).keep
    · exact (Keep0.of_eq (s := s) (s' := s.fail _) rfl rfl).keep
  | stuck => exact (Keep0.of_eq (s := s) (s' := s.fail .stuck) rfl rfl).keep

theorem keep0_waitReturn (P : Prog σ V E) (s : State σ V E) (w) {t} (h : (s.wctx w).caller ≠ some t) : Keep0 t s (waitReturn P s w) := by
  unfold waitReturn; dsimp only
  have h1 : ∀ r : Res V E, Keep0 t s ((((s.setW w { s.wctx w with alive := false }).pop).reply (s.wctx w).caller (.res r)).emit (.waitRet w r)) :=
    fun r => (Keep0.trans (Keep0.of_eq (s := s) (s' := (s.setW w { s.wctx w with alive := false }).pop) rfl rfl) (keep0_reply h _)).emit rfl
  split
  · exact h1 _
  · split
    · exact h1 _
    · exact Keep0.of_eq rfl rfl

/-- Nothing was seen of the body of `t`. -/
def Quiet (t : Nat) (s s' : State σ V E) : Prop := ∀ cal, talk t cal s'.log = talk t cal s.log

theorem talk_append (t cal) (l m : List (Ev V E)) : talk t cal (l ++ m) = talk t cal l ++ talk t cal m := by simp [talk]
theorem talk_snoc (t cal) (l : List (Ev V E)) (e) : talk t cal (l ++ [e]) = talk t cal l ++ (tev t cal e).toList := by
  simp only [talk, List.filterMap_append]; cases h : tev t cal e <;> simp [h]
theorem Quiet.of_evs {t} {s s' : State σ V E} {evs} (h : s'.log = s.log ++ evs) (he : ∀ e ∈ evs, ∀ cal, tev t cal e = none) : Quiet t s s' := by
  intro cal
  rw [h, talk_append]
  have : talk t cal evs = [] := by rw [talk, List.filterMap_eq_nil_iff]; exact fun e h => he e h cal
  rw [this, List.append_nil]
theorem Quiet.of_eq {t} {s s' : State σ V E} (h : s'.log = s.log) : Quiet t s s' := fun cal => by rw [h]
theorem Quiet.refl (t) (s : State σ V E) : Quiet t s s := fun _ => rfl
theorem Quiet.trans {t} {a b c : State σ V E} (h : Quiet t a b) (k : Quiet t b c) : Quiet t a c := fun cal => (k cal).trans (h cal)
theorem Quiet.emit {t} {s s' : State σ V E} (h : Quiet t s s') {e} (he : ∀ cal, tev t cal e = none) : Quiet t s (s'.emit e) := by
  intro cal; show talk t cal (s'.log ++ [e]) = _; rw [talk_snoc, he, h]; simp

theorem evOK.tev {who t} {e : Ev V E} (h : evOK who e) (ht : who ≠ some t) (cal) : tev t cal e = none := by
  cases e <;> simp_all [evOK, Task.tev]
  all_goals (intro hx; subst hx; simp_all)

theorem quiet_deref (s : State σ V E) (c t) : Quiet t s (deref s c) := by
  obtain ⟨evs, h, he⟩ := (eff2_deref s c none).log
  exact Quiet.of_evs h (fun e h => (he e h).tev (by simp))
theorem quiet_dropObj (s : State σ V E) (o t) : Quiet t s (dropObj s o) := by
  unfold dropObj
  split
  · exact Quiet.refl _ _
  · exact quiet_deref _ _ _
theorem quiet_doUser (P : Prog σ V E) (s : State σ V E) (who act) {t} (hw : who ≠ some t) (hna : ∀ o, act ≠ .await o) :
    Quiet t s (doUser P s who act) := by
  obtain ⟨evs, h, he⟩ := (eff2_doUser P s who act hna).log
  exact Quiet.of_evs h (fun e h => (he e h).tev hw)
theorem quiet_awaitObj (P : Prog σ V E) (s : State σ V E) (a o priv) {t} (h : a ≠ t) : Quiet t s (awaitObj P s a o priv) := by
  rcases awaitObj_cases P s a o priv with ⟨u, h⟩ | ⟨_, _, _, h⟩ | ⟨d, _, hd, _, ⟨r, _, _, h⟩ | ⟨_, _, h⟩ | ⟨hi, _, h⟩⟩ <;> rw [h]
  · exact Quiet.refl _ _
  · exact Quiet.of_evs (hungState_log _ _) (by simp [tev])
  · exact Quiet.of_evs (readyState_log P _ _ _ _) (by simp [tev, ‹a ≠ t›])
  · exact Quiet.of_evs (regState_log _ _ _) (by simp [tev])
  · exact Quiet.of_evs (lazyState_log _ _ _) (by simp [tev])
theorem quiet_doAct (P : Prog σ V E) (s : State σ V E) (a : Nat) (act : Act σ V E) {t} (hat : a ≠ t) : Quiet t s (doAct P s a act) := by
  have hw : some a ≠ some t := by simpa using hat
  cases act with
  | u act =>
    by_cases hna : ∀ o, act ≠ .await o
    · exact quiet_doUser P s _ act hw hna
    · simp only [Classical.not_forall, Classical.not_not] at hna
      obtain ⟨o, rfl⟩ := hna
      exact quiet_awaitObj P s a o false hat
  | awaitTmp o => exact quiet_awaitObj P s a o true hat
  | markCb v => exact Quiet.emit (s' := s.reply (some a) .unit) (Quiet.refl _ _) (fun _ => rfl)
  | markErr v => exact Quiet.emit (s' := s.reply (some a) .unit) (Quiet.refl _ _) (fun _ => rfl)
  | ctxAlive q v => simp only [doAct]; split <;> exact Quiet.emit (s' := s.reply (some a) _) (Quiet.refl _ _) (fun _ => rfl)
  | waitDone w r => simp only [doAct]; split <;> exact Quiet.refl _ _
  | callTmp k code v =>
    obtain ⟨evs, h, he⟩ := (eff2_spawn P ((s.setCoro a { s.coro a with inp := .obj s.no }).emit (.cbTask a s.nc)) k (.user code) [] v (.tmp a) none).log
    refine Quiet.trans (b := (s.setCoro a { s.coro a with inp := .obj s.no }).emit (.cbTask a s.nc)) ?_ (Quiet.of_evs h (fun e h => (he e h).tev (by simp)))
    exact Quiet.emit (s' := s.setCoro a { s.coro a with inp := .obj s.no }) (Quiet.refl _ _) (fun _ => rfl)
  | dropTmp o =>
    simp only [doAct]; split
    · exact Quiet.trans (b := s.reply (some a) .unit) (Quiet.refl _ _) (quiet_dropObj _ _ _)
    · exact Quiet.refl _ _
  | stuck => exact Quiet.refl _ _

theorem talk_waitReturn (P : Prog σ V E) (s : State σ V E) (w) {t} (h : (s.wctx w).caller ≠ some t) :
    talk t (fun w => (s.wctx w).caller) (waitReturn P s w).log = talk t (fun w => (s.wctx w).caller) s.log := by
  have h1 : ∀ r : Res V E, talk t (fun w => (s.wctx w).caller) ((((s.setW w { s.wctx w with alive := false }).pop).reply (s.wctx w).caller (.res r)).emit (.waitRet w r)).log = talk t (fun w => (s.wctx w).caller) s.log := by
    intro r
    show talk t _ ((((s.setW w { s.wctx w with alive := false }).pop).reply (s.wctx w).caller (.res r)).log ++ [.waitRet w r]) = _
    rw [talk_snoc, reply_log]; simp [tev, h, State.pop, State.setW]
  unfold waitReturn; dsimp only
  split
  · exact h1 _
  · split
    · exact h1 _
    · rfl

/-- What a step is for coroutine `t`. -/
inductive Loc (P : Prog σ V E) (op : Op σ V E) (s s' : State σ V E) (t : Nat) : Prop
  /-- not concerned (or started by somebody's co_await) -/
  | same (h : Keep t s s') (q : talk t (fun w => (s.wctx w).caller) s'.log = talk t (fun w => (s.wctx w).caller) s.log)
  /-- resumed by the completion of `d`, with outcome `r` -/
  | woken (d : Nat) (r : Res V E) (st : (s.coro t).status = .waitTask d) (st' : (s'.coro t).status = .running)
      (inp : (s'.coro t).inp = .res r) (code : (s'.coro t).code = (s.coro t).code) (owned : (s'.coro t).owned = (s.coro t).owned)
      (kind : (s'.coro t).kind = (s.coro t).kind) (hi : hist t s'.log = hist t s.log ++ [.got d r])
      (tk : talk t (fun w => (s.wctx w).caller) s'.log = talk t (fun w => (s.wctx w).caller) s.log ++ [.heard r])
  /-- resumed by something external -/
  | ext (r : Res V E) (st : (s.coro t).status = .waitExt) (st' : (s'.coro t).status = .running) (inp : (s'.coro t).inp = .res r)
      (code : (s'.coro t).code = (s.coro t).code)
      (tk : talk t (fun w => (s.wctx w).caller) s'.log = talk t (fun w => (s.wctx w).caller) s.log ++ [.heard r])
      (hi : hist t s'.log = hist t s.log ++ [.ext r])
  /-- its call of waitFor returned -/
  | ret (r : Res V E) (us : ∀ code, (s.coro t).code = some code → userish code) (st : (s'.coro t).status = (s.coro t).status)
      (code : (s'.coro t).code = (s.coro t).code) (owned : (s'.coro t).owned = (s.coro t).owned)
      (kind : (s'.coro t).kind = (s.coro t).kind) (hi : hist t s'.log = hist t s.log) (inp : (s'.coro t).inp = .res r)
      (w : Nat) (cl : (s.wctx w).caller = some t) (al : (s.wctx w).alive = true) (al' : (s'.wctx w).alive = false)
      (tk : talk t (fun w => (s.wctx w).caller) s'.log = talk t (fun w => (s.wctx w).caller) s.log ++ [.heard r])
  /-- it acts itself -/
  | act (st : List Frame) (code : Code σ V E) (hst : s.stack = .body t :: st) (hc : (s.coro t).code = some code) (hf : (s.coro t).freed = false)
      (hop : op = .run) (h : s' = doAct P (actState P s t code) t (codeNext P (s.coro t).owned code (s.coro t).inp).2)

theorem Loc.quiet {P : Prog σ V E} {op} {s s' : State σ V E} {t} (h : Keep t s s') (q : Quiet t s s') : Loc P op s s' t := .same h (q _)

theorem step_loc (P : Prog σ V E) {s : State σ V E} (hI : Inv s) (hu : s.ub = none) (op) (hu' : (step P s op).ub = none) {t} (ht : t < s.nc) :
    Loc P op s (step P s op) t := by
  have hco := hI.i2.i1.core
  have hku : ∀ u, (s.fail u).ub ≠ none := by simp [State.fail]
  cases op with
  | main a =>
    have hr : step P s (.main a) = if s.mayAct then doUser P s none a else s := by simp [step, hu]
    rw [hr]
    split
    · by_cases hna : ∀ o, a ≠ .await o
      · exact .quiet (keep_doUser P s none a ht (by simp) hna).keep (quiet_doUser P s none a (by simp) hna)
      · simp only [Classical.not_forall, Classical.not_not] at hna
        obtain ⟨o, rfl⟩ := hna
        exact .quiet (Keep.refl _ _) (Quiet.refl _ _)
    · exact .quiet (Keep.refl _ _) (Quiet.refl _ _)
  | fire c r =>
    by_cases hx : (s.mayAct && (s.coro c).status = .waitExt) = true
    · have hr : step P s (.fire c r) = ((s.setCoro c { s.coro c with status := .running, inp := .res r }).emit (.extRes c r)).push (.body c) := by
        simp only [step, hu]; simp [hx]
      by_cases hct : c = t
      · subst hct
        rw [hr]
        refine .ext r (by simpa using (by simpa using hx : _ ∧ _).2) ?_ ?_ ?_ (by show talk c _ (s.log ++ [.extRes c r]) = _; rw [talk_snoc]; simp [tev])
          (by show hist c (s.log ++ [.extRes c r]) = _; rw [hist_snoc]; simp [hev])
        all_goals simp [State.push, State.emit, State.setCoro]
      · rw [hr]
        refine .quiet (Keep0.keep (Keep0.trans (b := (s.setCoro c { s.coro c with status := .running, inp := .res r }).emit (.extRes c r)) ?_ (Keep0.of_eq rfl rfl)))
          (Quiet.of_evs (evs := [.extRes c r]) rfl (by simp [tev, hct]))
        exact (keep0_setCoro _ hct).emit (e := .extRes c r) (by simp [hev, hct])
    · have hr : step P s (.fire c r) = s := by simp only [step, hu]; simp [hx]
      rw [hr]; exact .quiet (Keep.refl _ _) (Quiet.refl _ _)
  | exitLoop w =>
    by_cases hx : (s.mayAct && s.stack.contains (.loop w)) = true
    · have hr : step P s (.exitLoop w) = (s.setW w { s.wctx w with exit := true }).emit (.extExit w) := by
        simp only [step, hu, hx, if_true]; rfl
      rw [hr]
      exact .quiet (Keep0.emit (s' := s.setW w { s.wctx w with exit := true }) (Keep0.of_eq (s := s) rfl rfl) rfl).keep (Quiet.of_evs (evs := [.extExit w]) rfl (by simp [tev]))
    · have hr : step P s (.exitLoop w) = s := by simp only [step, hu, hx]; simp
      rw [hr]; exact .quiet (Keep.refl _ _) (Quiet.refl _ _)
  | run =>
    have hr : step P s .run = run P s := by simp [step, hu]
    cases hst : s.stack with
    | nil => rw [hr]; simp only [run, hst]; exact .quiet (Keep.refl _ _) (Quiet.refl _ _)
    | cons f st =>
      have hwr : ∀ w, (f = .waitB w ∨ f = .loop w) → Loc P .run s (waitReturn P s w) t := by
        intro w hf
        by_cases hcl : (s.wctx w).caller = some t
        · have hswf := hI.i2.w.swf
          rw [hst] at hswf
          have h1 := (hswf.1 w (by rcases hf with rfl | rfl <;> rfl)).2.2 t hcl
          have h2 := (hswf.1 w (by rcases hf with rfl | rfl <;> rfl)).2.1
          obtain ⟨r0, h0⟩ : ∃ r0, r0 = s.wctx w := ⟨_, rfl⟩
          have h3 : ∀ r : Res V E, Loc P .run s ((((s.setW w { s.wctx w with alive := false }).pop).reply (s.wctx w).caller (.res r)).emit (.waitRet w r)) t := by
            intro r
            rw [hcl]
            refine .ret r h1.2 ?_ ?_ ?_ ?_ ?_ ?_ w hcl (h2) ?_ ?_
            case refine_5 => show hist t (s.log ++ [.waitRet w r]) = _; rw [hist_snoc]; simp [hev]
            case refine_8 => show talk t _ (s.log ++ [.waitRet w r]) = _; rw [talk_snoc]; simp [tev, hcl]
            all_goals simp [State.emit, State.reply, State.setCoro, State.pop, State.setW]
          unfold waitReturn; dsimp only
          split
          · exact h3 _
          · split
            · exact h3 _
            · exact .quiet (Keep0.of_eq (s := s) (s' := s.fail _) rfl rfl).keep (Quiet.refl _ _)
        · exact .same (keep0_waitReturn P s w hcl).keep (talk_waitReturn P s w hcl)
      cases f with
      | body c =>
        by_cases hct : c = t
        · subst hct
          cases hf : (s.coro c).freed with
          | true => exfalso; rw [hr] at hu'; simp [run, hst, hf, State.fail] at hu'
          | false =>
            cases hcode : (s.coro c).code with
            | none => exfalso; rw [hr] at hu'; simp [run, hst, hf, hcode, State.fail] at hu'
            | some code => exact .act st code hst hcode hf rfl (step_run_body hu hst hf hcode)
        · rw [hr]; simp only [run, hst]
          split
          · exact .quiet (Keep0.of_eq (s := s) (s' := s.fail _) rfl rfl).keep (Quiet.refl _ _)
          · split
            · exact .quiet (Keep0.of_eq (s := s) (s' := s.fail _) rfl rfl).keep (Quiet.refl _ _)
            · rename_i code _
              have h0 : Keep0 t s (actState P s c code) := keep0_setCoro _ hct
              have h1 := keep_doAct P (actState P s c code) c (codeNext P (s.coro c).owned code (s.coro c).inp).2 (t := t) ht hct
              refine .quiet ⟨h1.code.trans h0.code, h1.inp.trans h0.inp, h1.owned.trans h0.owned, h1.kind.trans h0.kind, ?_, h1.hist.trans h0.hist⟩
                (Quiet.trans (b := actState P s c code) (Quiet.refl _ _) (quiet_doAct P _ c _ hct))
              have h2 := h1.status
              rw [h0.status] at h2
              exact h2
      | final c =>
        cases hf : (s.coro c).freed with
        | true => exfalso; rw [hr] at hu'; simp [run, hst, hf, State.fail] at hu'
        | false =>
          cases hfin : (s.coro c).fin with
          | nil =>
            have : run P s = deref ((s.setCoro c { s.coro c with selfRef := false }).pop) c := by simp [run, hst, hf, hfin]
            rw [hr, this]
            refine .quiet (Keep0.trans ?_ (keep0_deref _ _ _)).keep (Quiet.trans (b := (s.setCoro c { s.coro c with selfRef := false }).pop) (Quiet.refl _ _) (quiet_deref _ _ _))
            constructor <;> simp only [State.pop, State.setCoro] <;> grind
          | cons a rest =>
            cases step_cases P s .run with
            | quiet evs hl hq =>
              -- every other branch is a fault
              exfalso
              rw [hr] at hu' hl
              simp only [run, hst, hf, hfin] at hu' hl
              simp only [Bool.false_eq_true, if_false] at hu' hl
              split at hu'
              · simp [State.fail] at hu'
              · rename_i hfa
                rw [if_neg hfa] at hl
                split at hu'
                · rename_i hwa
                  rw [if_pos hwa] at hl
                  split at hu'
                  · simp [State.fail] at hu'
                  · rename_i r hres
                    rw [hres] at hl
                    simp only [State.push, State.emit, State.setCoro] at hl
                    have := List.append_cancel_left hl
                    subst this
                    exact hq (.gotWoken a c r) (List.mem_singleton.2 rfl)
                · simp [State.fail] at hu'
            | await c' st' code o priv _ hst' => rw [hst] at hst'; simp at hst'
            | woken c' st' a' rest' r _ hst' hf' hfin' ha hac h =>
              rw [hst] at hst'; simp at hst'; obtain ⟨rfl, rfl⟩ := hst'
              rw [h]
              by_cases hat : a' = t
              · subst hat
                refine .woken c r ha ?_ ?_ ?_ ?_ ?_ ?_ ?_
                case refine_7 => show talk a' _ (s.log ++ [.gotWoken a' c r]) = _; rw [talk_snoc]; simp [tev]
                case refine_6 => show hist a' (s.log ++ [.gotWoken a' c r]) = _; rw [hist_snoc]; simp [hev]
                all_goals
                  simp only [wokenState, State.push, State.emit, State.setCoro]
                  grind
              · refine .quiet ?_ (Quiet.of_evs (evs := [.gotWoken a' c r]) rfl (by simp [tev, hat]))
                constructor
                case hist => show hist t (s.log ++ [.gotWoken a' c r]) = _; rw [hist_snoc]; simp [hev, hat]
                all_goals
                  simp only [wokenState, State.push, State.emit, State.setCoro]
                  grind
      | drops os =>
        rw [hr]
        cases os with
        | nil => simp only [run, hst]; exact .quiet (Keep0.keep (Keep0.of_eq rfl rfl)) (Quiet.refl _ _)
        | cons o os =>
          simp only [run, hst]; split
          · exact .quiet (Keep0.trans (Keep0.of_eq (s := s) (s' := s.pop.push (.drops os)) rfl rfl) (keep0_dropObj _ _ _)).keep (Quiet.trans (b := s.pop.push (.drops os)) (Quiet.refl _ _) (quiet_dropObj _ _ _))
          · exact .quiet (Keep0.keep (Keep0.of_eq rfl rfl)) (Quiet.refl _ _)
      | assign dst src =>
        rw [hr]; simp only [run, hst]; split <;> exact .quiet (Keep0.keep (Keep0.of_eq rfl rfl)) (Quiet.refl _ _)
      | waitA w tmp =>
        rw [hr]; simp only [run, hst]; split
        · exact .quiet (Keep0.trans (Keep0.of_eq (s := s) (s' := s.pop.push (.waitB w)) rfl rfl) (keep0_dropObj _ _ _)).keep (Quiet.trans (b := s.pop.push (.waitB w)) (Quiet.refl _ _) (quiet_dropObj _ _ _))
        · exact .quiet (Keep0.keep (Keep0.of_eq rfl rfl)) (Quiet.refl _ _)
      | waitB w =>
        rw [hr]; simp only [run, hst]; split
        · exact hwr w (.inl rfl)
        · exact .quiet (Keep0.emit (s' := s.pop.push (.loop w)) (Keep0.of_eq (s := s) rfl rfl) rfl).keep (Quiet.of_evs (evs := [.loopEnter w]) rfl (by simp [tev]))
      | loop w =>
        rw [hr]; simp only [run, hst]; split
        · exact hwr w (.inr rfl)
        · exact .quiet (Keep.refl _ _) (Quiet.refl _ _)

end QCoro.Task
