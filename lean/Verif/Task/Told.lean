import Verif.Task.Progress
/-! C66: a coroutine body is executed as the sequential program it is. -/
set_option linter.unusedSimpArgs false
namespace QCoro.Task
variable {σ V E : Type}

theorem quiet_reply {t} (s : State σ V E) (who i) : Quiet t s (s.reply who i) := Quiet.of_eq (reply_log _ _ _)
theorem quiet_spawn (P : Prog σ V E) (s : State σ V E) (k code ps v own t) : Quiet t s (spawn P s k code ps v own) := by
  obtain ⟨evs, h, he⟩ := (eff2_spawn P s k code ps v own none).log
  exact Quiet.of_evs h (fun e h => (he e h).tev (by simp))

/-- A statement of the body that is not a suspension, not the end and not a call of waitFor is answered at once. -/
theorem self_answer (P : Prog σ V E) (s : State σ V E) {t} (ht : t < s.nc) (a : UAct σ V E) (hl : leaves a = false) (hw : ∀ o b, a ≠ .waitFor o b)
    (hu' : (doUser P s (some t) a).ub = none) (i0) :
    Fits i0 (some a) ((doUser P s (some t) a).coro t).inp ∧ ∀ cal, talk t cal (doUser P s (some t) a).log = talk t cal s.log ++ shows a := by
  have rep : ∀ (x : State σ V E) i, ((x.reply (some t) i).coro t).inp = i := fun x i => by simp [State.reply, State.setCoro]
  have fin : ∀ (b : State σ V E) i, (b.coro t).inp = i → Fits i0 (some a) i → shows a = [] → Quiet t s b →
      Fits i0 (some a) (b.coro t).inp ∧ ∀ cal, talk t cal b.log = talk t cal s.log ++ shows a := by
    intro b i h1 h2 h3 h4
    exact ⟨by rw [h1]; exact h2, fun cal => by rw [h3, h4 cal]; simp⟩
  cases a with
  | ret v => simp [leaves] at hl
  | throw e => simp [leaves] at hl
  | await o => simp [leaves] at hl
  | awaitExt now => simp [leaves] at hl
  | waitFor o b => exact absurd rfl (hw o b)
  | call k code v args =>
    simp only [doUser] at hu' ⊢
    split at hu'
    · rename_i hx; simp [hu'] at hx
    · rename_i hx
      rw [if_neg hx]
      have hnc : t < (moveArgs s args).1.nc := by rw [(moveArgs_log args s).2]; exact ht
      refine fin _ (.obj (moveArgs s args).1.no) ?_ ⟨_, rfl⟩ rfl ?_
      · rw [(keep_spawn P _ k (.user code) (moveArgs s args).2 v .user (by exact hnc)).inp]
        simp [State.setCoro]
      · refine Quiet.trans (b := (moveArgs s args).1) (Quiet.of_eq (moveArgs_log args s).1) ?_
        refine Quiet.trans (b := ((moveArgs s args).1.setCoro t { (moveArgs s args).1.coro t with inp := .obj (moveArgs s args).1.no })) (Quiet.refl _ _) (quiet_spawn _ _ _ _ _ _ _ _)
  | drop o =>
    simp only [doUser] at hu' ⊢
    split at hu'
    · rename_i hx; rw [if_pos hx]
      exact fin _ .unit (by rw [(keep0_dropObj _ _ t).inp, rep]) rfl rfl ((quiet_reply _ _ _).trans (quiet_dropObj _ _ _))
    · simp [State.fail] at hu'
  | moveNew src =>
    simp only [doUser] at hu' ⊢
    split at hu'
    · rename_i hx; rw [if_pos hx]
      exact fin _ (.obj s.no) (rep s (.obj s.no)) ⟨_, rfl⟩ rfl (quiet_reply s (some t) (.obj s.no))
    · simp [State.fail] at hu'
  | moveAssign dst src =>
    simp only [doUser] at hu' ⊢
    split at hu'
    · rename_i hx; rw [if_pos hx]
      split
      · exact fin _ .unit (rep _ _) rfl rfl (quiet_reply _ _ _)
      · split
        · exact fin _ .unit (rep _ _) rfl rfl (quiet_reply _ _ _)
        · refine fin _ .unit ?_ rfl rfl ?_
          · rw [(keep0_deref _ _ t).inp]; exact rep s .unit
          · exact (quiet_reply s (some t) .unit).trans (Quiet.trans (Quiet.of_eq rfl) (quiet_deref _ _ _))
    · simp [State.fail] at hu'
  | mkNull k => exact fin _ (.obj s.no) (rep _ _) ⟨_, rfl⟩ rfl (Quiet.of_eq rfl)
  | isReady o =>
    simp only [doUser] at hu' ⊢
    split at hu'
    · rename_i hx; rw [if_pos hx]
      split
      · exact fin _ (.flag true) (rep s _) ⟨_, rfl⟩ rfl ((quiet_reply s (some t) (.flag true)).emit (fun _ => rfl))
      · split
        · rename_i hf; simp_all [State.fail]
        · rename_i c _ _
          exact fin _ (.flag (decide ((s.coro c).status = .done))) (rep s _) ⟨_, rfl⟩ rfl ((quiet_reply s (some t) _).emit (fun _ => rfl))
    · simp [State.fail] at hu'
  | thenL o cfg =>
    simp only [doUser] at hu' ⊢
    split at hu'
    · rename_i hx; rw [if_pos hx]
      refine fin _ (.obj s.no) ?_ ⟨_, rfl⟩ rfl ?_
      · rw [(keep_spawn P _ _ _ _ _ _ (by exact ht)).inp]; exact rep _ _
      · refine Quiet.trans ?_ (quiet_spawn _ _ _ _ _ _ _ _)
        exact (Quiet.emit (e := .thenMade s.nc (s.obj o).handle (cfg.plain.info false)) (Quiet.refl t s) (fun _ => rfl)).trans (quiet_reply _ _ _)
    · simp [State.fail] at hu'
  | thenR o cfg =>
    simp only [doUser] at hu' ⊢
    split at hu'
    · rename_i hx; rw [if_pos hx]
      refine fin _ (.obj (s.no + 1)) ?_ ⟨_, rfl⟩ rfl ?_
      · rw [(keep_spawn P _ _ _ _ _ _ (by exact ht)).inp]; exact rep _ _
      · refine Quiet.trans ?_ (quiet_spawn _ _ _ _ _ _ _ _)
        refine Quiet.trans (Quiet.emit (e := .thenMade s.nc (s.obj o).handle (cfg.plain.info true)) (Quiet.refl t s) (fun _ => rfl)) ?_
        exact Quiet.trans (b := moveObj (s.emit (.thenMade s.nc (s.obj o).handle (cfg.plain.info true))) o (.param s.nc)) (Quiet.of_eq rfl) (quiet_reply _ _ _)
    · simp [State.fail] at hu'
  | connect o q code =>
    simp only [doUser] at hu' ⊢
    split at hu'
    · rename_i hx; rw [if_pos hx]
      refine fin _ .unit ?_ rfl rfl ?_
      · rw [(keep_spawn P _ _ _ _ _ _ (by exact ht)).inp]; exact rep _ _
      · refine Quiet.trans ?_ (quiet_spawn _ _ _ _ _ _ _ _)
        refine Quiet.trans (Quiet.emit (e := .thenMade s.nc (s.obj o).handle ⟨false, some q, false, false⟩) (Quiet.refl t s) (fun _ => rfl)) ?_
        exact (quiet_reply _ (some t) .unit).trans (Quiet.of_eq rfl)
    · simp [State.fail] at hu'
  | delCtx q =>
    refine fin _ .unit (rep { s with qalive := fun i => if i = q then false else s.qalive i } .unit) rfl rfl ?_
    exact Quiet.emit (e := .ctxDel q) (Quiet.trans (b := { s with qalive := fun i => if i = q then false else s.qalive i }) (Quiet.of_eq rfl) (quiet_reply _ _ _)) (fun _ => rfl)
  | note n =>
    refine ⟨rep _ _, fun cal => ?_⟩
    show talk t cal ((s.reply (some t) .unit).log ++ [.note (some t) n]) = _
    rw [talk_snoc, reply_log]; simp [tev, shows]

/-- What a body's own `co_await` on a Task leads to. -/
theorem self_await_talk (P : Prog σ V E) (s : State σ V E) (t o) (hs : (s.coro t).status = .running) (hu' : (awaitObj P s t o false).ub = none) :
    (((awaitObj P s t o false).coro t).status = .running ∧ ∃ r, ((awaitObj P s t o false).coro t).inp = .res r ∧
      ∀ cal, talk t cal (awaitObj P s t o false).log = talk t cal s.log ++ [.heard r]) ∨
    ((((awaitObj P s t o false).coro t).status = .waitNull ∨ ∃ d, ((awaitObj P s t o false).coro t).status = .waitTask d) ∧ Quiet t s (awaitObj P s t o false)) := by
  have h0 := self_await P s t o false hs hu'
  rcases awaitObj_cases P s t o false with ⟨u, h⟩ | ⟨_, hh, _, h⟩ | ⟨d, _, hd, _, ⟨r, hdn, _, h⟩ | ⟨_, _, h⟩ | ⟨hi, _, h⟩⟩
  · rw [h] at hu'; simp [State.fail] at hu'
  · right; rw [h]
    exact ⟨.inl (by simp [hungState, State.pop, State.emit, State.setCoro]), Quiet.of_evs (hungState_log _ _) (by simp [tev])⟩
  · left; rw [h]
    have hne : t ≠ d := by rintro rfl; rw [hs] at hdn; simp at hdn
    refine ⟨by simp [readyState, State.reply, State.emit, State.setCoro, hne, hs], r, by simp [readyState, State.reply, State.emit, State.setCoro, hne], ?_⟩
    intro cal; rw [readyState_log, talk_snoc]; simp [tev]
  · right; rw [h]
    exact ⟨.inr ⟨d, by simp only [regState, State.pop, State.emit, State.setCoro]; grind⟩, Quiet.of_evs (regState_log _ _ _) (by simp [tev])⟩
  · right; rw [h]
    have hne : t ≠ d := by rintro rfl; rw [hs] at hi; simp at hi
    exact ⟨.inr ⟨d, by simp only [lazyState, State.pop, State.push, State.emit, State.setCoro]; grind⟩, Quiet.of_evs (lazyState_log _ _ _) (by simp [tev])⟩

/-- Call `w` of waitFor is made by `t` and has not returned. -/
def Calling (t w : Nat) (s : State σ V E) : Prop := (s.wctx w).alive = true ∧ (s.wctx w).caller = some t

/-- Where the body of coroutine `t`, called as `f` with `i0`, is. -/
structure Where (P : Prog σ V E) (t : Nat) (f : σ) (i0 : Resp V E) (s : State σ V E) (x : Point σ V E) : Prop where
  lt : t < s.nc
  plays : Plays P f i0 x
  code : (s.coro t).code = some (.user x.st)
  now :
    -- about to go on
    (((s.coro t).status = .running ∨ ((s.coro t).status = .initial ∧ x.last = none)) ∧ Fits i0 x.last (s.coro t).inp ∧ (∀ w, ¬ Calling t w s) ∧
      talk t (fun w => (s.wctx w).caller) s.log = x.seen ++ hears x.last (s.coro t).inp) ∨
    -- suspended
    ((((∃ o, x.last = some (.await o)) ∧ ((s.coro t).status = .waitNull ∨ ∃ d, (s.coro t).status = .waitTask d)) ∨
        (x.last = some (.awaitExt none) ∧ (s.coro t).status = .waitExt)) ∧ (∀ w, ¬ Calling t w s) ∧
      talk t (fun w => (s.wctx w).caller) s.log = x.seen) ∨
    -- in a call of waitFor
    ((∃ o b, x.last = some (.waitFor o b)) ∧ (s.coro t).status = .running ∧ (∃ w, Calling t w s ∧ ∀ w', Calling t w' s → w' = w) ∧
      talk t (fun w => (s.wctx w).caller) s.log = x.seen) ∨
    -- over
    (((∃ v, x.last = some (.ret v)) ∨ ∃ e, x.last = some (.throw e)) ∧ (s.coro t).status = .done ∧ (∀ w, ¬ Calling t w s) ∧
      talk t (fun w => (s.wctx w).caller) s.log = x.seen)

theorem step_caller (P : Prog σ V E) {s : State σ V E} (op) (hu : s.ub = none) (hu' : (step P s op).ub = none) {w} (hw : w < s.nw) :
    ((step P s op).wctx w).caller = (s.wctx w).caller := by
  cases wstep P op hu hu' (.inl hw) with
  | same cx => rw [cx]
  | done c st code x hop hst hf hc ha hal he => rw [he]; simp [State.reply, State.setCoro, State.setW, actState]
  | ret f st x hop hst hf hx he => rw [he]; simp [State.emit, State.setW, State.pop]
  | exit hop hm he => rw [he]; simp [State.emit, State.setW]

/-- The view from outside does not depend on when the callers of waitFor are looked up. -/
theorem talk_stable (P : Prog σ V E) {s : State σ V E} (op) (hu : s.ub = none) (hu' : (step P s op).ub = none) (t) (l : List (Ev V E))
    (hl : ∀ w r, .waitRet w r ∈ l → w < s.nw) :
    talk t (fun w => ((step P s op).wctx w).caller) l = talk t (fun w => (s.wctx w).caller) l := by
  induction l with
  | nil => rfl
  | cons e l ih =>
    have he : tev t (fun w => ((step P s op).wctx w).caller) e = tev t (fun w => (s.wctx w).caller) e := by
      cases e <;> try rfl
      rename_i w r
      simp only [tev, step_caller P op hu hu' (hl w r (by simp))]
    have := ih (fun w r h => hl w r (by simp [h]))
    simp only [talk, List.filterMap_cons, he] at this ⊢
    split <;> simp [this]

/-- Only the body itself calls waitFor. -/
theorem calling_step (P : Prog σ V E) {s : State σ V E} (op) (hu : s.ub = none) (hu' : (step P s op).ub = none) (hI' : Inv (step P s op)) {t}
    (hne : ¬ (op = .run ∧ ∃ st, s.stack = .body t :: st)) {w} (h : Calling t w (step P s op)) : Calling t w s := by
  by_cases hw : w < s.nw
  · refine ⟨?_, by rw [← step_caller P op hu hu' hw]; exact h.2⟩
    have h1 := h.1
    cases wstep P op hu hu' (.inl hw) with
    | same cx => rw [cx] at h1; exact h1
    | done c st code x hop hst hf hc ha hal he => exact hal
    | ret f st x hop hst hf hx he => rw [he] at h1; simp [State.emit, State.setW, State.pop] at h1
    | exit hop hm he => rw [he] at h1; simpa [State.emit, State.setW] using h1
  · exfalso
    by_cases hw' : (step P s op).nw ≤ w
    · have := hI'.i2.w.fresh w hw'; have h1 := h.1; rw [this] at h1; simp at h1
    · rcases step_nw P op hu with h1 | ⟨h1, who, o, b, evs, hp, _⟩
      · omega
      · have : w = s.nw := by omega
        subst this
        obtain ⟨s1, hs, _, _, _, _, _, _, hnw, _⟩ := hp.step
        have h2 := h.2
        rw [hs] at h2 hu'
        simp only [doUser] at h2 hu'
        split at hu'
        · rename_i hx
          rw [if_pos hx, (spawn_w P _ _ _ _ _ _).1] at h2
          simp [State.push, State.emit, State.setW, hnw] at h2
          subst h2
          obtain ⟨_, ⟨h3, _⟩ | ⟨c, st, code, h3, h4, h5, _⟩⟩ := hp
          · cases h3
          · cases h3; exact hne ⟨h4, st, h5⟩
        · simp [State.fail] at hu'

/-- A body that is in a call of waitFor is not executing. -/
theorem calling_not_top {s : State σ V E} (hI : Inv s) {t w st} (hs : s.stack = .body t :: st) (h : Calling t w s) : False := by
  have h1 := hI.i2.w.live w h.1
  have h2 := hI.i2.w.swf
  have h3 := hI.i2.i1.core.bodyN
  rw [hs] at h1 h2 h3
  have key : ∀ l : List Frame, w ∈ waits l → SWF s l → Frame.body t ∈ l.tail := by
    intro l
    induction l with
    | nil => intro hw; simp [waits] at hw
    | cons g l ih =>
      intro hw hswf
      simp only [waits, List.filterMap_cons] at hw
      split at hw
      · have := ih hw hswf.2; simp; exact List.mem_of_mem_tail this
      · rename_i w' hg
        simp at hw
        rcases hw with rfl | hw
        · obtain ⟨r, hr⟩ := ((hswf.1 w hg).2.2 t h.2).1
          simp [hr]
        · have := ih (by simpa [waits] using hw) hswf.2; simp; exact List.mem_of_mem_tail this
  have h4 := key _ h1 h2
  simp at h4
  have : t ∈ bodies st := mem_bodies.2 h4
  have h5 : t ∉ bodies st := by
    have : (t :: bodies st).Nodup := h3
    exact (List.nodup_cons.1 this).1
  exact h5 this

theorem hears_answered {a : UAct σ V E} (hl : leaves a = false) (hw : ∀ o b, a ≠ .waitFor o b) (i) : hears (some a) i = [] := by
  cases a <;> simp_all [leaves, hears]

theorem where_step (P : Prog σ V E) {s : State σ V E} (hI : Inv s) (hfr : EvFresh s) (hu : s.ub = none) (op) (hu' : (step P s op).ub = none)
    (hI' : Inv (step P s op)) {t f i0 x} (h : Where P t f i0 s x) : ∃ y, Where P t f i0 (step P s op) y := by
  have hnc : t < (step P s op).nc := Nat.lt_of_lt_of_le h.lt (seff_step P op).nc
  have hco := hI.i2.i1.core
  -- the view after the step, looked at with the callers of the step before
  have tk : talk t (fun w => ((step P s op).wctx w).caller) (step P s op).log = talk t (fun w => (s.wctx w).caller) (step P s op).log := by
    refine talk_stable P op hu hu' t _ ?_
    intro w r hm
    by_cases hx : .waitRet w r ∈ s.log
    · apply Nat.lt_of_not_le; intro h; exact (hfr w h).2.2 r hx
    · obtain ⟨⟨g, st, hst, hg⟩, _⟩ := ret_step hx hm
      have := hI.i2.w.swf; rw [hst] at this
      exact (this.1 w hg).1
  by_cases htop : op = .run ∧ ∃ st, s.stack = .body t :: st
  · obtain ⟨rfl, st, hs⟩ := htop
    have hrun : (s.coro t).status = .running := (hco.bodyR t).1 (by rw [hs]; simp [bodies])
    have hno : ∀ w, ¬ Calling t w s := fun w hw => calling_not_top hI hs hw
    have hf : (s.coro t).freed = false := by
      cases hf : (s.coro t).freed with
      | false => rfl
      | true => simp [step, hu, run, hs, hf, State.fail] at hu'
    have he := step_run_body (P := P) hu hs hf h.code
    have hready : Fits i0 x.last (s.coro t).inp ∧ talk t (fun w => (s.wctx w).caller) s.log = x.seen ++ hears x.last (s.coro t).inp := by
      rcases h.now with ⟨_, h1, _, h2⟩ | ⟨⟨_, h1 | ⟨d, h1⟩⟩ | ⟨_, h1⟩, _, _⟩ | ⟨_, _, ⟨w, hw, _⟩, _⟩ | ⟨_, h1, _, _⟩
      · exact ⟨h1, h2⟩
      · rw [hrun] at h1; simp at h1
      · rw [hrun] at h1; simp at h1
      · rw [hrun] at h1; simp at h1
      · exact absurd hw (hno w)
      · rw [hrun] at h1; simp at h1
    refine ⟨x.turn P (s.coro t).inp, hnc, .turn h.plays _ hready.1, ?_, ?_⟩
    · have h2 : (step P s .run).coro t = (doUser P (actState P s t (.user x.st)) (some t) (P.next x.st (s.coro t).inp).2).coro t := by rw [he]; rfl
      rw [h2, (eff_doUser P (actState P s t (.user x.st)) (some t) _).code t h.lt]
      simp [actState, State.setCoro, codeNext, Point.turn]
    · obtain ⟨a, ha⟩ : ∃ a, a = (P.next x.st (s.coro t).inp).2 := ⟨_, rfl⟩
      rw [tk]
      obtain ⟨s1, h1⟩ : ∃ s1, s1 = actState P s t (.user x.st) := ⟨_, rfl⟩
      have hA : Actor s1 (some t) := ⟨st, by rw [h1]; exact hs⟩
      have hr1 : (s1.coro t).status = .running := by rw [h1]; simp [actState, State.setCoro, hrun]
      have hw1 : s1.wctx = s.wctx := by rw [h1]; rfl
      have hn1 : s1.nw = s.nw := by rw [h1]; rfl
      have hl1 : s1.log = s.log := by rw [h1]; rfl
      have hc1 : t < s1.nc := by rw [h1]; exact h.lt
      have he' : step P s .run = doUser P s1 (some t) a := by rw [he, h1, ha]; rfl
      have hseen : (x.turn P (s.coro t).inp).seen = talk t (fun w => (s.wctx w).caller) s.log ++ shows a := by
        rw [hready.2, ha]; rfl
      have hlast : (x.turn P (s.coro t).inp).last = some a := by rw [ha]; rfl
      rw [hseen, hlast]
      rw [he'] at hu' ⊢
      have hnoc : (doUser P s1 (some t) a).wctx = s.wctx → ∀ w, ¬ Calling t w (doUser P s1 (some t) a) := by
        intro hx w hw
        exact hno w ⟨by rw [← hx]; exact hw.1, by rw [← hx]; exact hw.2⟩
      by_cases hl : leaves a = false
      · by_cases hw : ∀ o b, a ≠ .waitFor o b
        · left
          have h2 := self_answer P s1 hc1 a hl hw hu' i0
          refine ⟨.inl ?_, h2.1, hnoc (by rw [(doUser_stk P hA a hw).2.1, hw1]), ?_⟩
          · rw [(keepS_doUser P s1 (some t) a hc1 hl).status, hr1]
          · rw [h2.2, hears_answered hl hw, hl1]; simp
        · right; right; left
          simp only [Classical.not_forall, Classical.not_not] at hw
          obtain ⟨o, b, rfl⟩ := hw
          refine ⟨⟨o, b, rfl⟩, ?_, ?_, ?_⟩
          · rw [(keepS_doUser P s1 (some t) _ hc1 hl).status, hr1]
          · simp only [doUser] at hu' ⊢
            split at hu'
            · rename_i hx
              rw [if_pos hx]
              have hww : (spawn P (((({ s1.setW s1.nw { alive := true, isVoid := b, caller := some t } with nw := s1.nw + 1 } : State σ V E)).emit (.waitCall s1.nw s1.nc (s1.aim o))).push (.waitA s1.nw s1.no)) .eager (.waitRun s1.nw o .init) [] P.dflt .stk).wctx = (s1.setW s1.nw { alive := true, isVoid := b, caller := some t }).wctx :=
                (spawn_w P _ _ _ _ _ _).1
              refine ⟨s1.nw, ⟨?_, ?_⟩, ?_⟩
              · have e1 := congrArg (fun f => (f s1.nw).alive) hww
                exact Eq.trans e1 (by simp [State.setW])
              · have e1 := congrArg (fun f => (f s1.nw).caller) hww
                exact Eq.trans e1 (by simp [State.setW])
              · intro w' hw'
                apply Classical.byContradiction
                intro hne
                refine hno w' ⟨?_, ?_⟩
                · have e1 := (congrArg (fun f => (f w').alive) hww).symm.trans hw'.1
                  simpa [State.setW, hne, hw1] using e1
                · have e1 := (congrArg (fun f => (f w').caller) hww).symm.trans hw'.2
                  simpa [State.setW, hne, hw1] using e1
            · simp [State.fail] at hu'
          · simp only [doUser] at hu' ⊢
            split at hu'
            · rename_i hx
              rw [if_pos hx]
              refine Eq.trans (quiet_spawn P _ _ _ _ _ _ t _) ?_
              show talk t _ (s1.log ++ [.waitCall _ _ _]) = _
              rw [talk_snoc, hl1]; simp [tev, shows]
            · simp [State.fail] at hu'
      · cases a with
        | ret v =>
          right; right; right
          refine ⟨.inl ⟨v, rfl⟩, (self_finish s1 t (.val v)).2.2.2.1, hnoc hw1, ?_⟩
          show talk t _ (s1.log ++ [.finished t (.val v)]) = _
          rw [talk_snoc, hl1]; simp [tev, shows]
        | throw e =>
          right; right; right
          refine ⟨.inr ⟨e, rfl⟩, (self_finish s1 t (.exc e)).2.2.2.1, hnoc hw1, ?_⟩
          show talk t _ (s1.log ++ [.finished t (.exc e)]) = _
          rw [talk_snoc, hl1]; simp [tev, shows]
        | await o =>
          have hwx : (doUser P s1 (some t) (.await o)).wctx = s.wctx := by rw [(doUser_stk P hA (.await o) (by simp)).2.1, hw1]
          rcases self_await_talk P s1 t o hr1 hu' with ⟨h2, r, h3, h4⟩ | ⟨h2, h3⟩
          · left
            refine ⟨.inl h2, ⟨r, h3⟩, hnoc hwx, ?_⟩
            have h3' : ((doUser P s1 (some t) (.await o)).coro t).inp = .res r := h3
            rw [h3']
            exact (h4 _).trans (by rw [hl1]; simp [shows, hears])
          · right; left
            exact ⟨.inl ⟨⟨o, rfl⟩, h2⟩, hnoc hwx, (h3 _).trans (by rw [hl1]; simp [shows])⟩
        | awaitExt now =>
          cases now with
          | some r =>
            left
            have hi : ((doUser P s1 (some t) (.awaitExt (some r))).coro t).inp = .res r := by simp [doUser, State.reply, State.emit, State.setCoro]
            refine ⟨.inl (by simp [doUser, State.reply, State.emit, State.setCoro, hr1]), hi, hnoc hw1, ?_⟩
            rw [hi]
            show talk t _ ((s1.log ++ [.extSusp t]) ++ [.extRes t r]) = _
            rw [talk_snoc, talk_snoc, hl1]; simp [tev, shows, hears]
          | none =>
          right; left
          refine ⟨.inr ⟨rfl, by simp [doUser, State.pop, State.emit, State.setCoro]⟩, hnoc hw1, ?_⟩
          show talk t _ (s1.log ++ [.extSusp t]) = _
          rw [talk_snoc, hl1]; simp [tev, shows]
        | _ => simp [leaves] at hl
  · have hcs : ∀ w, Calling t w (step P s op) → Calling t w s := fun w => calling_step P op hu hu' hI' htop
    have hno : (∀ w, ¬ Calling t w s) → ∀ w, ¬ Calling t w (step P s op) := fun h w hw => h w (hcs w hw)
    cases step_loc P hI hu op hu' h.lt with
    | same k q =>
      refine ⟨x, hnc, h.plays, k.code.trans h.code, ?_⟩
      rw [tk, q, k.inp]
      rcases h.now with ⟨h1, h2, h3, h4⟩ | ⟨h1, h3, h4⟩ | ⟨h1, h2, ⟨w, hw, hw'⟩, h4⟩ | ⟨h1, h2, h3, h4⟩
      · refine .inl ⟨?_, h2, hno h3, h4⟩
        rcases k.status with hk | ⟨_, hk, _⟩
        · rw [hk]; exact h1
        · exact .inl hk
      · refine .inr (.inl ⟨?_, hno h3, h4⟩)
        rcases k.status with hk | ⟨hk, _⟩
        · rw [hk]; exact h1
        · rw [hk] at h1; simp at h1
      · refine .inr (.inr (.inl ⟨h1, ?_, ⟨w, ⟨?_, ?_⟩, fun w' hx => hw' w' (hcs w' hx)⟩, h4⟩))
        · rcases k.status with hk | ⟨hk, _⟩
          · rw [hk]; exact h2
          · rw [hk] at h2; simp at h2
        · have hlt : w < s.nw := waits_lt hI.i2.w.swf (hI.i2.w.live w hw.1)
          cases wstep P op hu hu' (.inl hlt) with
          | same cx => rw [cx]; exact hw.1
          | done c st code x hop hst hf hc ha hal he => rw [he]; simp [State.reply, State.setCoro, State.setW, hal]
          | ret f st x hop hst hf hx he =>
            exfalso
            have : (step P s op).log = s.log ++ [.waitRet w x] := by
              rw [he]; show (State.reply _ _ _).log ++ [_] = _; rw [reply_log]; rfl
            rw [this, talk_snoc] at q
            simp [tev, hw.2] at q
          | exit hop hm he => rw [he]; simp [State.emit, State.setW, hw.1]
        · have hlt : w < s.nw := waits_lt hI.i2.w.swf (hI.i2.w.live w hw.1)
          rw [step_caller P op hu hu' hlt]; exact hw.2
      · refine .inr (.inr (.inr ⟨h1, ?_, hno h3, h4⟩))
        rcases k.status with hk | ⟨hk, _⟩
        · rw [hk]; exact h2
        · rw [hk] at h2; simp at h2
    | woken d r st st' inp code owned kind hi tk1 =>
      refine ⟨x, hnc, h.plays, code.trans h.code, .inl ?_⟩
      rw [tk, tk1, st', inp]
      rcases h.now with ⟨h1, _⟩ | ⟨⟨⟨o, h1⟩, _⟩ | ⟨_, h1⟩, h3, h4⟩ | ⟨h1, h2, _⟩ | ⟨_, h2, _⟩
      · rw [st] at h1; simp at h1
      · rw [h1, h4]; exact ⟨.inl rfl, ⟨r, rfl⟩, hno h3, rfl⟩
      · rw [st] at h1; simp at h1
      · rw [st] at h2; simp at h2
      · rw [st] at h2; simp at h2
    | ext r st st' inp code tk1 _ =>
      refine ⟨x, hnc, h.plays, code.trans h.code, .inl ?_⟩
      rw [tk, tk1, st', inp]
      rcases h.now with ⟨h1, _⟩ | ⟨⟨_, h1 | ⟨d, h1⟩⟩ | ⟨h1, _⟩, h3, h4⟩ | ⟨h1, h2, _⟩ | ⟨_, h2, _⟩
      · rw [st] at h1; simp at h1
      · rw [st] at h1; simp at h1
      · rw [st] at h1; simp at h1
      · rw [h1, h4]; exact ⟨.inl rfl, ⟨r, rfl⟩, hno h3, rfl⟩
      · rw [st] at h2; simp at h2
      · rw [st] at h2; simp at h2
    | ret r us st code owned kind hi inp w cl al al' tk1 =>
      refine ⟨x, hnc, h.plays, code.trans h.code, .inl ?_⟩
      rw [tk, tk1, st, inp]
      rcases h.now with ⟨_, _, h3, _⟩ | ⟨_, h3, _⟩ | ⟨⟨o, b, h1⟩, h2, ⟨w', hw, hw'⟩, h4⟩ | ⟨_, _, h3, _⟩
      · exact absurd ⟨al, cl⟩ (h3 w)
      · exact absurd ⟨al, cl⟩ (h3 w)
      · rw [h1, h4, h2]
        refine ⟨.inl rfl, ⟨r, rfl⟩, ?_, rfl⟩
        intro v hv
        have e1 := hw' v (hcs v hv)
        have e2 := hw' w ⟨al, cl⟩
        rw [e1, ← e2] at hv
        have := hv.1; rw [al'] at this; simp at this
      · exact absurd ⟨al, cl⟩ (h3 w)
    | act st code hs hc hf hop he => exact absurd ⟨hop, st, hs⟩ htop

/-- Nothing can be seen of a coroutine that does not exist. -/
theorem talk_unborn {P : Prog σ V E} {s : State σ V E} (hI : Inv s) (hL : LInv P s) {t} (ht : s.nc ≤ t) : talk t (fun w => (s.wctx w).caller) s.log = [] := by
  have h : life t s.log = .unborn := by rw [hL.life, hI.i2.i1.core.corB _ ht]
  rw [talk, List.filterMap_eq_nil_iff]
  intro e he
  obtain ⟨pre, post, h3, h4⟩ := hL.ok.mem he
  apply Classical.byContradiction
  intro hn
  have h5 := hL.ok
  rw [h3] at h5 h
  by_cases hw : ∃ w r, e = .waitRet w r
  · obtain ⟨w, r, rfl⟩ := hw
    have : (s.wctx w).caller ≠ some t := by
      intro hx; have := hI.i2.w.callerLt w t hx; omega
    simp [tev, this] at hn
  · refine life_unborn_stays_le h5 (c := t) ?_ h
    cases e <;> simp only [tev] at hn <;> first | (exact absurd trivial hn) | (exact absurd rfl hn) | (exact absurd ⟨_, _, rfl⟩ hw) | skip
    all_goals
      split at hn
      · rename_i hx; subst hx
        simp only [legal] at h4
        grind
      · exact absurd rfl hn

theorem moveArgs_ps (as : List Nat) : ∀ s : State σ V E, (moveArgs s as).1.ub = none → (moveArgs s as).2 = List.range' s.no as.length := by
  induction as with
  | nil => intro s _; rfl
  | cons a as ih =>
    intro s hu
    simp only [moveArgs] at hu ⊢
    split at hu
    · rename_i hx
      rw [if_pos hx]
      simp only [List.length_cons, List.range'_succ]
      rw [ih _ hu]
      rfl
    · simp [State.fail] at hu

/-- Where a body is when its coroutine has been created. -/
theorem where_spawn {P : Prog σ V E} {s : State σ V E} {op} (hI : Inv s) (hL : LInv P s) (hfr : EvFresh s) (hu : s.ub = none)
    (hu' : (step P s op).ub = none) (hI' : Inv (step P s op)) {b : State σ V E} {k f ps v own} (he : step P s op = spawn P b k (.user f) ps v own) (hb : b.nc = s.nc)
    (hq : Quiet s.nc s (step P s op)) : Where P s.nc f (.start ps v) (step P s op) ⟨f, none, []⟩ := by
  have h0 := talk_unborn hI hL (Nat.le_refl s.nc)
  have hbody : ∀ st, s.stack ≠ .body s.nc :: st := by
    intro st h
    have := (hI.i2.i1.core.bodyR s.nc).1 (by rw [h]; simp [bodies])
    rw [hI.i2.i1.core.corB _ (Nat.le_refl _)] at this; simp at this
  have hcall : ∀ w, ¬ Calling s.nc w (step P s op) := by
    intro w hw
    have := calling_step P op hu hu' hI' (by rintro ⟨_, st, h⟩; exact hbody st h) hw
    have := hI.i2.w.callerLt w _ this.2
    omega
  have tk : talk s.nc (fun w => ((step P s op).wctx w).caller) (step P s op).log = [] := by
    have h1 : talk s.nc (fun w => (s.wctx w).caller) (step P s op).log = [] := by rw [hq, h0]
    rw [← h1]
    refine talk_stable P op hu hu' s.nc _ ?_
    intro w r hm
    by_cases hx : .waitRet w r ∈ s.log
    · apply Nat.lt_of_not_le; intro h; exact (hfr w h).2.2 r hx
    · obtain ⟨⟨g, st, hst, hg⟩, _⟩ := ret_step hx hm
      have := hI.i2.w.swf; rw [hst] at this
      exact (this.1 w hg).1
  obtain ⟨a1, a2, a3, a4, a5, a6, a7, a8, a9⟩ := spawn_new P b k (.user f) ps v own
  have a10 : ((spawn P b k (.user f) ps v own).coro b.nc).inp = .start ps v := by
    unfold spawn; cases k <;> simp [State.push, State.emit, State.setCoro, State.setObj]
  rw [← he, hb] at a1 a4 a10
  rw [← he] at a7
  refine ⟨by omega, .start, a1, .inl ⟨?_, ?_, hcall, ?_⟩⟩
  · rw [a4]; cases k <;> simp
  · rw [a10]; rfl
  · rw [tk]; simp [hears]

/-- Where a body is when its coroutine has been called. -/
theorem where_born {P : Prog σ V E} {s : State σ V E} {op who k f v args} (hI : Inv s) (hL : LInv P s) (hfr : EvFresh s) (hp : Performs P s op who (.call k f v args))
    (hu' : (step P s op).ub = none) (hI' : Inv (step P s op)) :
    Where P s.nc f (.start (List.range' s.no args.length) v) (step P s op) ⟨f, none, []⟩ := by
  have hu : s.ub = none := hp.1
  have hbody : ∀ st, s.stack ≠ .body s.nc :: st := by
    intro st h
    have := (hI.i2.i1.core.bodyR s.nc).1 (by rw [h]; simp [bodies])
    rw [hI.i2.i1.core.corB _ (Nat.le_refl _)] at this; simp at this
  obtain ⟨s1, hs, hl, ho, hnc, hno, hstk, hw, hnw, hwc⟩ := hp.step
  have hwho : who ≠ some s.nc := by
    rintro rfl
    obtain ⟨st, h⟩ := hw _ rfl
    exact hbody st h
  have hq : Quiet s.nc s (step P s op) := by
    intro cal
    rw [hs, quiet_doUser P s1 who (.call k f v args) (t := s.nc) hwho (by simp), hl]
  have hps := moveArgs_ps args s1
  have hu2 := hu'
  have hs2 := hs
  rw [hs] at hu2
  simp only [doUser] at hs2 hu2
  split at hu2
  · rename_i hx; rw [hu2] at hx; simp at hx
  · rename_i hx
    rw [if_neg hx] at hs2
    have := where_spawn hI hL hfr hu hu' hI' hs2 (by cases who <;> simp [State.setCoro, (moveArgs_log args s1).2, hnc]) hq
    rw [hps (by simpa using hx), hno] at this
    exact this

theorem where_exec {P : Prog σ V E} {ops op ops' who k f v args} (hp : Performs P (exec P ops) op who (.call k f v args))
    (hu : (exec P (ops ++ op :: ops')).ub = none) :
    ∃ x, Where P (exec P ops).nc f (.start (List.range' (exec P ops).no args.length) v) (exec P (ops ++ op :: ops')) x := by
  have e0 : ops ++ op :: ops' = (ops ++ [op]) ++ ops' := by simp
  rw [e0] at hu ⊢
  clear e0
  induction ops' using QCoro.snocInd with
  | nil =>
    have hu1 : (exec P (ops ++ [op])).ub = none := by simpa using hu
    have hu0 : (exec P ops).ub = none := hp.1
    rw [List.append_nil]
    have hI' := exec_inv P _ hu1
    rw [exec_snoc] at hu1 hI' ⊢
    exact ⟨_, where_born (exec_inv P _ hu0) (exec_linv P _) (exec_fresh P _ hu0) hp hu1 hI'⟩
  | snoc l o ih =>
    rw [← List.append_assoc] at hu ⊢
    have hu0 : (exec P ((ops ++ [op]) ++ l)).ub = none := exec_ub_prefix _ _ hu
    obtain ⟨x, hx⟩ := ih hu0
    have hI' := exec_inv P _ hu
    rw [exec_snoc] at hu hI' ⊢
    exact where_step P (exec_inv P _ hu0) (exec_fresh P _ hu0) hu0 o hu hI' hx

/-- What was seen of the body of coroutine `c` in the run that led to `s`: what its co_await expressions and calls of waitFor produced, its
side effects and its end, in this order. -/
def seenOf (c : Nat) (s : State σ V E) : List (TEv V E) := talk c (fun w => (s.wctx w).caller) s.log

/-- C66. A coroutine body is executed as the sequential program it is.  Let a coroutine be called with body `f`, value `v` and Task arguments
`args` (which become its parameters).  Whatever else happens before and afterwards, what can be seen of it is what can be seen of an execution
of the program `f`, statement by statement from its start, each statement once and in order, each told an answer of the right form; every
co_await and every call of waitFor in the body is answered with exactly what the events say. -/
theorem C66_body_is_a_sequential_program {P : Prog σ V E} {ops op ops' who k f v args} (hp : Performs P (exec P ops) op who (.call k f v args))
    (hu : (exec P (ops ++ op :: ops')).ub = none) :
    ∃ x : Point σ V E, Plays P f (.start (List.range' (exec P ops).no args.length) v) x ∧
      (seenOf (exec P ops).nc (exec P (ops ++ op :: ops')) = x.seen ∨
       ∃ i, Fits (.start (List.range' (exec P ops).no args.length) v) x.last i ∧
        seenOf (exec P ops).nc (exec P (ops ++ op :: ops')) = x.seen ++ hears x.last i) := by
  obtain ⟨x, h⟩ := where_exec hp hu
  refine ⟨x, h.plays, ?_⟩
  rcases h.now with ⟨_, h1, _, h2⟩ | ⟨_, _, h2⟩ | ⟨_, _, _, h2⟩ | ⟨_, _, _, h2⟩
  · exact .inr ⟨_, h1, h2⟩
  · exact .inl h2
  · exact .inl h2
  · exact .inl h2

/-- C66. It goes on where it stopped: the body is at point `x` of its execution.  If it has not started, it is at its beginning; if it is suspended, its
last statement is the co_await in which it is suspended, and if it has completed, the return (or throw) with its outcome; when it
executes, its last statement has been answered (nothing is missing, nothing is answered twice) and the next thing it does is the next statement
of the program, given that answer. -/
theorem C66_goes_on_where_it_stopped {P : Prog σ V E} {ops op ops' who k f v args} (hp : Performs P (exec P ops) op who (.call k f v args))
    (hu : (exec P (ops ++ op :: ops')).ub = none) {c s} (hc : c = (exec P ops).nc) (hs : s = exec P (ops ++ op :: ops')) :
    ∃ x : Point σ V E, Plays P f (.start (List.range' (exec P ops).no args.length) v) x ∧ (s.coro c).code = some (.user x.st) ∧
      (life c s.log = .initial → x = ⟨f, none, []⟩ ∧ seenOf c s = []) ∧
      ((life c s.log = .waitNull ∨ ∃ d, life c s.log = .waitTask d) → (∃ o, x.last = some (.await o)) ∧ seenOf c s = x.seen) ∧
      (life c s.log = .waitExt → x.last = some (.awaitExt none) ∧ seenOf c s = x.seen) ∧
      (life c s.log = .done → ((∃ v, x.last = some (.ret v) ∧ .finished c (.val v) ∈ s.log) ∨ ∃ e, x.last = some (.throw e) ∧ .finished c (.exc e) ∈ s.log) ∧ seenOf c s = x.seen) ∧
      (∀ st, s.stack = .body c :: st → ∃ i, Fits (.start (List.range' (exec P ops).no args.length) v) x.last i ∧
        seenOf c s = x.seen ++ hears x.last i ∧ Performs P s .run (some c) (P.next x.st i).2) := by
  subst hc hs
  obtain ⟨x, h⟩ := where_exec hp hu
  have hI := exec_inv P _ hu
  have hL := exec_linv P (ops ++ op :: ops')
  generalize exec P (ops ++ op :: ops') = s at *
  generalize (exec P ops).nc = c at *
  generalize (Resp.start (List.range' (exec P ops).no args.length) v : Resp V E) = i0 at *
  have hstart : x.last = none → x = ⟨f, none, []⟩ := by
    intro hx
    cases h.plays with
    | start => rfl
    | turn => simp [Point.turn] at hx
  have hend : ∀ r : Res V E, seenOf c s = x.seen → .ended r ∈ x.seen → .finished c r ∈ s.log := by
    intro r h1 h2
    rw [← h1, seenOf, talk, List.mem_filterMap] at h2
    obtain ⟨e, he, h3⟩ := h2
    cases e <;> simp only [tev] at h3 <;> first | (simp at h3; done) | skip
    all_goals
      split at h3
      · rename_i hx; simp at h3; try (subst h3; subst hx; exact he)
      · simp at h3
  have hret : ∀ a r, x.last = some a → shows a = [.ended r] → .ended r ∈ x.seen := by
    intro a r h1 h2
    cases h.plays with
    | start => simp at h1
    | turn hy i hi => simp [Point.turn] at h1 ⊢; rw [h1, h2]; simp
  refine ⟨x, h.plays, h.code, ?_, ?_, ?_, ?_, ?_⟩
  · rw [hL.life]
    intro hl
    rcases h.now with ⟨h1 | ⟨_, h1⟩, _, _, h2⟩ | ⟨⟨_, h1 | ⟨d, h1⟩⟩ | ⟨_, h1⟩, _⟩ | ⟨_, h1, _⟩ | ⟨_, h1, _⟩
    · rw [hl] at h1; simp at h1
    · have := hstart h1
      refine ⟨this, ?_⟩
      rw [seenOf, h2, this]; rfl
    all_goals (rw [hl] at h1; simp at h1)
  · rw [hL.life]
    intro hl
    rcases h.now with ⟨h1, _⟩ | ⟨⟨h1, _⟩ | ⟨_, h1⟩, _, h2⟩ | ⟨_, h1, _⟩ | ⟨_, h1, _⟩
    · rcases hl with hl | ⟨d, hl⟩ <;> (rw [hl] at h1; simp at h1)
    · exact ⟨h1, h2⟩
    all_goals (rcases hl with hl | ⟨d, hl⟩ <;> (rw [hl] at h1; simp at h1))
  · rw [hL.life]
    intro hl
    rcases h.now with ⟨h1, _⟩ | ⟨⟨_, h1 | ⟨d, h1⟩⟩ | ⟨h1, _⟩, _, h2⟩ | ⟨_, h1, _⟩ | ⟨_, h1, _⟩
    · rw [hl] at h1; simp at h1
    · rw [hl] at h1; simp at h1
    · rw [hl] at h1; simp at h1
    · exact ⟨h1, h2⟩
    all_goals (rw [hl] at h1; simp at h1)
  · rw [hL.life]
    intro hl
    rcases h.now with ⟨h1, _⟩ | ⟨⟨_, h1 | ⟨d, h1⟩⟩ | ⟨_, h1⟩, _, h2⟩ | ⟨_, h1, _⟩ | ⟨h1, _, _, h2⟩
    · rw [hl] at h1; simp at h1
    · rw [hl] at h1; simp at h1
    · rw [hl] at h1; simp at h1
    · rw [hl] at h1; simp at h1
    · rw [hl] at h1; simp at h1
    · refine ⟨?_, h2⟩
      rcases h1 with ⟨v, h1⟩ | ⟨e, h1⟩
      · exact .inl ⟨v, h1, hend _ h2 (hret _ _ h1 rfl)⟩
      · exact .inr ⟨e, h1, hend _ h2 (hret _ _ h1 rfl)⟩
  · intro st hst
    have hrun := (hI.i2.i1.core.bodyR c).1 (by rw [hst]; simp [bodies])
    rcases h.now with ⟨_, h1, _, h2⟩ | ⟨⟨_, h1 | ⟨d, h1⟩⟩ | ⟨_, h1⟩, _, h2⟩ | ⟨_, _, ⟨w, hw, _⟩, _⟩ | ⟨_, h1, _, h2⟩
    · refine ⟨_, h1, h2, hu, .inr ⟨c, st, .user x.st, rfl, rfl, hst, ?_, h.code, rfl⟩⟩
      exact hI.i2.i1.core.notFreed h.lt (by rw [hrun]; simp)
    · rw [hrun] at h1; simp at h1
    · rw [hrun] at h1; simp at h1
    · rw [hrun] at h1; simp at h1
    · exact absurd hw (fun hw => calling_not_top hI hst hw)
    · rw [hrun] at h1; simp at h1

theorem mem_hist_cbTask {t d} {l : List (Ev V E)} (h : .cbTask t d ∈ l) : .cbTask d ∈ hist t l :=
  List.mem_filterMap.2 ⟨_, h, by simp [hev]⟩

theorem thenNext_callTmp {P : Prog σ V E} {o cfg tmp ph i k f v} (h : (thenNext P o cfg tmp ph i).2 = .callTmp k f v) :
    ph = .cbStart v ∧ cfg.cbTask = some k ∧ f = cfg.cb := by
  cases ph <;> cases i <;> simp only [thenNext] at h <;> (repeat' split at h) <;> simp_all

/-- The coroutine of an asynchronous callback. -/
theorem cb_where {P : Prog σ V E} {ops op ops' t cfg rv k h} (hm : Makes P (exec P ops) op t cfg rv k h)
    (hu : (exec P (ops ++ op :: ops')).ub = none) {d} (hd : .cbTask t d ∈ (exec P (ops ++ op :: ops')).log) :
    ∃ v x, .cb t v ∈ (exec P (ops ++ op :: ops')).log ∧ Where P d cfg.cb (.start [] v) (exec P (ops ++ op :: ops')) x := by
  have hnew : ∀ p, (exec P (ops ++ op :: p)).ub = none → ∀ o, (step P (exec P (ops ++ op :: p)) o).ub = none → .cbTask t d ∉ (exec P (ops ++ op :: p)).log →
      .cbTask t d ∈ (step P (exec P (ops ++ op :: p)) o).log → ∃ v x, .cb t v ∈ (step P (exec P (ops ++ op :: p)) o).log ∧
        Where P d cfg.cb (.start [] v) (step P (exec P (ops ++ op :: p)) o) x := by
    intro p hup o huo hn hy
    obtain ⟨oo, hT⟩ := makes_exec hm hup
    have hI := exec_inv P _ hup
    have hL := exec_linv P (ops ++ op :: p)
    have hfr := exec_fresh P _ hup
    have hI' : Inv (step P (exec P (ops ++ op :: p)) o) := by
      have := exec_inv P (ops ++ op :: p ++ [o]) (by rw [exec_snoc]; exact huo)
      rwa [exec_snoc] at this
    generalize exec P (ops ++ op :: p) = s at *
    have add : ∀ evs, (step P s o).log = s.log ++ evs → .cbTask t d ∈ evs := by
      intro evs h; rw [h] at hy; simpa [hn] using hy
    cases lib_cases P s o with
    | quiet hq =>
      obtain ⟨evs, h1, h2⟩ := hq
      have := (h2 _ (add evs h1)).1; simp [evL] at this
    | enter w st hop hst hx he => exfalso; rw [he] at hy; simp [State.emit, State.push, State.pop, hn] at hy
    | exit w hop hl hmm he => exfalso; rw [he] at hy; simp [State.emit, State.setW, hn] at hy
    | ret w st hop hst he =>
      exfalso
      rw [he] at hy
      unfold waitReturn at hy; dsimp only at hy
      split at hy
      · simp [State.emit, State.setW, State.pop, hn] at hy
      · split at hy
        · simp [State.emit, State.setW, State.pop, hn] at hy
        · simp [State.fail, hn] at hy
    | act c st code hop hst hf hc ha he =>
      cases hact : (codeNext P (s.coro c).owned code (s.coro c).inp).2 with
      | callTmp k' f v =>
        rw [hact] at he
        have hlog := he
        simp only [doAct] at he
        have hspl : (step P s o).log = s.log ++ (.cbTask c s.nc :: match k' with | .eager => [.spawned s.nc k', .started s.nc] | .lazy => [.spawned s.nc k']) := by
          rw [he]; cases k' <;> simp [spawn, State.emit, State.push, State.setCoro, State.setObj, actState]
        have hmem := add _ hspl
        have hcd : t = c ∧ d = s.nc := by
          cases k' <;> simpa using hmem
        obtain ⟨rfl, rfl⟩ := hcd
        obtain ⟨ph, hcode, hat, _⟩ := hT.at'
        rw [hc] at hcode; cases hcode
        obtain ⟨rfl, h2, rfl⟩ := thenNext_callTmp (P := P) (o := oo) (cfg := cfg) hact
        have hrun := (hI.i2.i1.core.bodyR t).1 (by rw [hst]; simp [bodies])
        have hcb : .cb t v ∈ s.log := by
          rcases hat with ⟨h3, _⟩ | h3
          · rw [hrun] at h3; simp at h3
          · obtain ⟨_, _, d', p', _, _, hh⟩ := h3
            have : HEv.cb v ∈ hist t s.log := by rw [hh]; simp
            obtain ⟨e, he1, he2⟩ := List.mem_filterMap.1 this
            cases e <;> simp only [hev] at he2 <;> first | (simp at he2; done) | skip
            all_goals
              split at he2
              · rename_i hx; simp at he2; try (subst he2; subst hx; exact he1)
              · simp at he2
        have hne : t ≠ s.nc := by have := hT.lt; omega
        have hq : Quiet s.nc s (step P s o) := by
          intro cal
          rw [hlog]
          exact quiet_doAct P (actState P s t _) t _ hne cal
        refine ⟨v, _, ?_, where_spawn hI hL hfr hup huo hI' he rfl hq⟩
        rw [hspl]; simp [hcb]
      | markCb v => exfalso; rw [he, hact] at hy; simp [doAct, State.emit, actState, State.setCoro, hn] at hy
      | markErr v => exfalso; rw [he, hact] at hy; simp [doAct, State.emit, actState, State.setCoro, hn] at hy
      | ctxAlive q v =>
        exfalso; rw [he, hact] at hy; simp only [doAct] at hy
        split at hy <;> simp [State.emit, actState, State.setCoro, hn] at hy
      | u a => rw [hact] at ha; simp [actL] at ha
      | waitDone w r => rw [hact] at ha; simp [actL] at ha
      | awaitTmp o => rw [hact] at ha; simp [actL] at ha
      | dropTmp o => rw [hact] at ha; simp [actL] at ha
      | stuck => rw [hact] at ha; simp [actL] at ha
  have hu0 : (exec P ops).ub = none := exec_ub_prefix _ _ hu
  induction ops' using QCoro.snocInd with
  | nil =>
    exfalso
    have hI := exec_inv P ops hu0
    have hL := exec_linv P ops
    rw [exec_snoc] at hd hu
    have ht := (makes_TI True hI hL hm hu).1
    subst ht
    have hold : .cbTask (exec P ops).nc d ∉ (exec P ops).log := by
      intro h1
      have h2 := mem_hist_cbTask h1
      rw [hist_unborn hL (by rw [hL.life, hI.i2.i1.core.corB _ (Nat.le_refl _)])] at h2
      simp at h2
    have key : ∀ {who a}, Performs P (exec P ops) op who a → False := by
      intro who a hp
      obtain ⟨s1, hs, hl, _⟩ := hp.step
      obtain ⟨evs, h1, h2⟩ := doUser_NoL P s1 who a
      rw [hs, h1, hl] at hd
      simp [hold] at hd
      have := (h2 _ hd).1
      simp [evL] at this
    generalize (exec P ops).nc = t0 at *
    cases hm <;> (rename_i hp; exact key hp)
  | snoc l o ih =>
    have e1 : ops ++ op :: (l ++ [o]) = (ops ++ op :: l) ++ [o] := by simp
    have hul : (exec P (ops ++ op :: l)).ub = none := by rw [e1] at hu; exact exec_ub_prefix _ _ hu
    rw [e1, exec_snoc] at hu hd ⊢
    by_cases hx : .cbTask t d ∈ (exec P (ops ++ op :: l)).log
    · obtain ⟨v, x, h1, h2⟩ := ih hul hx
      have hI' : Inv (step P (exec P (ops ++ op :: l)) o) := by
        have := exec_inv P (ops ++ op :: l ++ [o]) (by rw [exec_snoc]; exact hu)
        rwa [exec_snoc] at this
      obtain ⟨y, hy⟩ := where_step P (exec_inv P _ hul) (exec_fresh P _ hul) hul o hu hI' h2
      exact ⟨v, y, step_log_mono P _ o h1, hy⟩
    · exact hnew l hul o hu hx hd

/-- C66. The same holds of the coroutine an asynchronous callback of `then()` is: it is called once, with the result of the task and no
Task arguments, and runs as the sequential program it is. -/
theorem C66_callback_is_a_sequential_program {P : Prog σ V E} {ops op ops' t cfg rv k h} (hm : Makes P (exec P ops) op t cfg rv k h)
    (hu : (exec P (ops ++ op :: ops')).ub = none) {d} (hd : .cbTask t d ∈ (exec P (ops ++ op :: ops')).log) :
    ∃ v, .cb t v ∈ (exec P (ops ++ op :: ops')).log ∧ ∃ x : Point σ V E, Plays P cfg.cb (.start [] v) x ∧
      (seenOf d (exec P (ops ++ op :: ops')) = x.seen ∨
       ∃ i, Fits (.start [] v) x.last i ∧ seenOf d (exec P (ops ++ op :: ops')) = x.seen ++ hears x.last i) := by
  obtain ⟨v, x, hv, h⟩ := cb_where hm hu hd
  refine ⟨v, hv, x, h.plays, ?_⟩
  rcases h.now with ⟨_, h1, _, h2⟩ | ⟨_, _, h2⟩ | ⟨_, _, _, h2⟩ | ⟨_, _, _, h2⟩
  · exact .inr ⟨_, h1, h2⟩
  · exact .inl h2
  · exact .inl h2
  · exact .inl h2

end QCoro.Task
