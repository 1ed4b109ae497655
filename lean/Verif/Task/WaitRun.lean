import Verif.Task.WaitInv

/-! The invariant of one call of `waitFor`: its runner coroutine, its `WaitContext`, its activation on the stack. -/
namespace QCoro.Task
variable {σ V E : Type}

/-- What was waited for gave `x`. -/
def GotA (h : Aim) (x : Res V E) (p : List (HEv V E)) : Prop := (∃ d, h = .task (some d) ∧ Got d x p) ∨ (h = .ext ∧ p = [.ext x])

/-- What was waited for has not given anything yet; `undone d`: coroutine `d` has not completed. -/
def Idle (h : Aim) (l : List (HEv V E)) (undone : Nat → Prop) : Prop :=
  (l = [.hung] ∧ h = .task none) ∨ (∃ d, h = .task (some d) ∧ l = [.reg d] ∧ undone d) ∨ (l = [] ∧ h = .ext)

/-- The runner `runCoroutine` at program point `ph`: status, answer it is about to process, what it did so far, and what
is stored in the context. -/
def WPh (P : Prog σ V E) (h : Aim) (st : Status) (i : Resp V E) (l : List (HEv V E)) (fin : Option (Res V E)) : WPhase → Prop
  | .init => l = [] ∧ st = .running ∧ fin = none
  | .waiting => fin = none ∧ ((l = [.hung] ∧ st = .waitNull ∧ h = .task none) ∨ (∃ d, h = .task (some d) ∧ l = [.reg d] ∧ st = .waitTask d) ∨
      (∃ x, GotA h x l ∧ st = .running ∧ i = .res x) ∨ (h = .ext ∧ l = [] ∧ st = .waitExt))
  | .signalled => ∃ x, GotA h x l ∧ st = .running ∧ fin = some x
  | .over => st = .done ∧ ∃ x p, GotA h x p ∧ l = p ++ [.fin (.val P.dflt)] ∧ fin = some x

/-- What the events of call `w` say about the past. -/
def okW (P : Prog σ V E) (w r : Nat) (h : Aim) (b : Bool) (pre : List (Ev V E)) : Ev V E → Prop
  | .waitRet w' x => w' = w → (∀ y, .waitRet w y ∉ pre) ∧
      ((∃ p q, GotA h x p ∧ hist r pre = p ++ q) ∨
       (.extExit w ∈ pre ∧ b = true ∧ x = .val P.dflt ∧ Idle h (hist r pre) (fun d => life d pre ≠ .done)))
  | .loopEnter w' => w' = w → Idle h (hist r pre) (fun d => life d pre ≠ .done)
  | _ => True

structure WT (P : Prog σ V E) (who : Option Nat) (w r : Nat) (oo : Arg V E) (h : Aim) (b : Bool) (s : State σ V E) : Prop where
  lt : r < s.nc
  wlt : w < s.nw
  vd : (s.wctx w).isVoid = b
  cl : (s.wctx w).caller = who
  uniq : ∀ c o ph, (s.coro c).code = some (.waitRun w o ph) → c = r
  bel : Bel w (.body r) s.stack
  belF : ∀ d, (s.coro r).status = .waitTask d → Bel w (.final d) s.stack
  at' : ∃ ph, (s.coro r).code = some (.waitRun w oo ph) ∧ WPh P h (s.coro r).status (s.coro r).inp (hist r s.log) (s.wctx w).fin ph ∧
    (ph = .init → (∃ st tmp, s.stack = .body r :: .waitA w tmp :: st) ∧ s.aim oo = h)
  ex : (s.wctx w).exit = true ↔ (s.wctx w).fin.isSome = true ∨ .extExit w ∈ s.log
  rt : (∃ y, .waitRet w y ∈ s.log) ↔ (s.wctx w).alive = false
  ok : Chk (okW P w r h b) s.log

theorem bel_of_not_mem {w p st} (h : p ∉ st) : Bel w p st := by
  induction st with
  | nil => trivial
  | cons f st ih => simp at h; exact ⟨fun _ => h.2, ih h.2⟩

theorem mem_bodies {c st} : c ∈ bodies st ↔ Frame.body c ∈ st := by
  induction st with
  | nil => simp [bodies]
  | cons f st ih => cases f <;> simp [ih]
theorem mem_finals {c st} : c ∈ finals st ↔ Frame.final c ∈ st := by
  induction st with
  | nil => simp [finals]
  | cons f st ih => cases f <;> simp [ih]

/-- Registering means the task was not finished. -/
theorem await_reg_undone (P : Prog σ V E) (s : State σ V E) (a o priv) (hs : (s.coro a).status = .running) {d}
    (h : ((awaitObj P s a o priv).coro a).status = .waitTask d) : (s.coro d).status ≠ .done := by
  rcases awaitObj_cases P s a o priv with ⟨u, h1⟩ | ⟨_, hh, _, h1⟩ | ⟨d', _, hd, _, ⟨r, hdn, _, h1⟩ | ⟨hn, _, h1⟩ | ⟨hi, _, h1⟩⟩ <;> rw [h1] at h
  · simp [State.fail, hs] at h
  · simp [hungState, State.pop, State.emit, State.setCoro] at h
  · exfalso
    simp only [readyState, State.reply, State.emit, State.setCoro] at h
    grind
  · have : d' = d := by simp [regState, State.pop, State.emit, State.setCoro] at h; exact h
    rw [← this]; exact hn
  · have : d' = d := by simp [lazyState, State.pop, State.push, State.emit, State.setCoro] at h; exact h
    rw [← this, hi]; simp

/-- New events of a step that are not about `waitFor` calls. -/
def NoWEv (l l' : List (Ev V E)) : Prop := ∃ evs, l' = l ++ evs ∧ ∀ e ∈ evs, evW e = false

theorem Chk.noW {P : Prog σ V E} {w r h b} {l l' : List (Ev V E)} (hc : Chk (okW P w r h b) l) (hn : NoWEv l l') : Chk (okW P w r h b) l' := by
  obtain ⟨evs, rfl, he⟩ := hn
  induction evs using snoc_induction with
  | h0 => simpa using hc
  | h1 l2 x ih =>
    rw [← List.append_assoc]
    refine (ih fun e hm => he e (by simp [hm])).snoc ?_
    have := he x (by simp)
    cases x <;> simp_all [evW, okW]

/-- Which steps emit events of `waitFor` calls. -/
inductive EvCase (P : Prog σ V E) (s : State σ V E) (op : Op σ V E) : Prop
  | quiet (h : NoWEv s.log (step P s op).log)
  | enter (w st) (hop : op = .run) (hst : s.stack = .waitB w :: st) (hn : (s.wctx w).fin = none)
      (h : step P s op = (s.pop.push (.loop w)).emit (.loopEnter w))
  | ret (w st x) (hop : op = .run) (hst : (s.stack = .waitB w :: st ∧ (s.wctx w).fin.isSome = true) ∨ (s.stack = .loop w :: st ∧ (s.wctx w).exit = true))
      (hx : (s.wctx w).fin = some x ∨ ((s.wctx w).fin = none ∧ (s.wctx w).isVoid = true ∧ x = .val P.dflt))
      (h : step P s op = (((s.setW w { s.wctx w with alive := false }).pop).reply (s.wctx w).caller (.res x)).emit (.waitRet w x))
  | exit (w) (hop : op = .exitLoop w) (hm : .loop w ∈ s.stack)
      (h : step P s op = (s.setW w { s.wctx w with exit := true }).emit (.extExit w))

theorem ev_cases (P : Prog σ V E) (s : State σ V E) (op) : EvCase P s op := by
  cases lib_cases P s op with
  | quiet h => obtain ⟨evs, h1, h2⟩ := h; exact .quiet ⟨evs, h1, fun e he => (h2 e he).2⟩
  | act c st code hop hst hf hc ha h =>
    refine .quiet ?_
    rw [h]
    have hl : (actState P s c code).log = s.log := rfl
    cases hact : (codeNext P (s.coro c).owned code (s.coro c).inp).2 with
    | markCb v => exact ⟨[.cb c v], rfl, by simp [evW]⟩
    | markErr e => exact ⟨[.err c e], rfl, by simp [evW]⟩
    | ctxAlive q v =>
      simp only [doAct]; split
      · exact ⟨[.cb c v], rfl, by simp [evW]⟩
      · exact ⟨[.guardDead c], rfl, by simp [evW]⟩
    | callTmp k code' v =>
      obtain ⟨evs, h1, h2⟩ := callTmp_log P (actState P s c code) c k code' v
      refine ⟨_, h1, ?_⟩
      intro e he
      rcases List.mem_cons.1 he with rfl | he
      · rfl
      · exact (h2 e he).2
    | _ => rw [hact] at ha; simp [actL] at ha
  | enter w st hop hst hn h => exact .enter w st hop hst hn h
  | exit w hop hl hm h => exact .exit w hop hm h
  | ret w st hop hst h =>
    unfold waitReturn at h; dsimp only at h
    split at h
    · rename_i x hx; exact .ret w st x hop hst (.inl hx) h
    · rename_i hx
      split at h
      · rename_i hv; exact .ret w st _ hop hst (.inr ⟨hx, hv, rfl⟩) h
      · exact .quiet ⟨[], by rw [h]; simp [State.fail], by simp⟩

/-- `WT` step, the runner's own part. -/
theorem WT_self {P : Prog σ V E} {who w r oo h b} {s : State σ V E} (hT : WT P who w r oo h b s) (hI : Inv s) (hu : s.ub = none) (op)
    (hu' : (step P s op).ub = none) :
    (∃ ph, ((step P s op).coro r).code = some (.waitRun w oo ph) ∧
      WPh P h ((step P s op).coro r).status ((step P s op).coro r).inp (hist r (step P s op).log) ((step P s op).wctx w).fin ph ∧
      (ph = .init → (∃ st tmp, (step P s op).stack = .body r :: .waitA w tmp :: st) ∧ (step P s op).aim oo = h)) ∧
    ∀ d, ((step P s op).coro r).status = .waitTask d → Bel w (.final d) s.stack := by
  have hco := hI.i2.i1.core
  obtain ⟨ph, hcode, hat, hini⟩ := hT.at'
  by_cases hbusy : ∃ st, s.stack = .body r :: st
  · obtain ⟨st, hst⟩ := hbusy
    by_cases hop : op = .run
    · subst hop
      have hrun : (s.coro r).status = .running := (hco.bodyR r).1 (by simp [hst])
      have hf : (s.coro r).freed = false := hco.notFreed hT.lt (by rw [hrun]; simp)
      have hstep := step_run_body (P := P) hu hst hf hcode
      have hac := actState_coro P s r (.waitRun w oo ph)
      have hlog : (actState P s r (.waitRun w oo ph)).log = s.log := rfl
      have hobj : (actState P s r (.waitRun w oo ph)).obj = s.obj := rfl
      have hwc : (actState P s r (.waitRun w oo ph)).wctx = s.wctx := rfl
      have hoth : ∀ c, c ≠ r → (actState P s r (.waitRun w oo ph)).coro c = s.coro c := fun c hc => by simp [actState, State.setCoro, hc]
      rw [hstep] at hu' ⊢
      generalize actState P s r (.waitRun w oo ph) = s1 at *
      have hrun1 : (s1.coro r).status = .running := by rw [hac]; exact hrun
      cases ph with
      | init =>
        obtain ⟨hl, _, hfin⟩ := hat
        have hh := (hini rfl).2
        have haim : s1.aim oo = h := by rw [← hh]; cases oo <;> simp [State.aim, hobj]
        cases oo with
        | ext now =>
          have hh2 : h = .ext := by rw [← haim]; rfl
          cases now with
          | some x =>
            simp only [codeNext, waitNext, waitAct, doAct, doUser] at hu' hac ⊢
            refine ⟨⟨.waiting, by simp [State.reply, State.emit, State.setCoro, hac], ⟨?_, .inr (.inr (.inl ⟨x, .inr ⟨hh2, ?_⟩, ?_, ?_⟩))⟩, by simp⟩, ?_⟩
            · show (s1.wctx w).fin = none; rw [hwc, hfin]
            · show hist r ((s1.log ++ [.extSusp r]) ++ [.extRes r x]) = _; rw [hist_snoc, hist_snoc, hlog, hl]; simp [hev]
            · simp [State.reply, State.emit, State.setCoro, hrun1]
            · simp [State.reply, State.emit, State.setCoro]
            · intro d hd; simp [State.reply, State.emit, State.setCoro, hrun1] at hd
          | none =>
          simp only [codeNext, waitNext, waitAct, doAct, doUser] at hu' hac ⊢
          refine ⟨⟨.waiting, by simp [State.pop, State.emit, State.setCoro, hac], ⟨?_, .inr (.inr (.inr ⟨hh2, ?_, by simp [State.pop, State.emit, State.setCoro]⟩))⟩, by simp⟩, ?_⟩
          · show (s1.wctx w).fin = none; rw [hwc, hfin]
          · show hist r (s1.log ++ [.extSusp r]) = []; rw [hist_snoc, hlog, hl]; simp [hev]
          · intro d hd; simp [State.pop, State.emit, State.setCoro] at hd
        | task oo =>
        simp only [codeNext, waitNext, waitAct, doAct, doUser] at hu' hac ⊢
        obtain ⟨h1, h2, h3, h4⟩ := self_await P s1 r oo false hrun1 hu'
        have hwx : (awaitObj P s1 r oo false).wctx = s1.wctx := by
          rcases awaitObj_cases P s1 r oo false with ⟨u, h1⟩ | ⟨_, _, _, h1⟩ | ⟨_, _, _, _, ⟨_, _, _, h1⟩ | ⟨_, _, h1⟩ | ⟨_, _, h1⟩⟩ <;> rw [h1] <;> rfl
        have key : ∀ x, (s1.obj oo).handle = x → h = .task x := by intro x hx; rw [← haim, State.aim, hx]
        refine ⟨⟨.waiting, by rw [h1, hac], ⟨by rw [hwx, hwc, hfin], ?_⟩, by simp⟩, ?_⟩
        · rcases h4 with ⟨a, b, c⟩ | ⟨d, a, ⟨x, b, c, e, _⟩ | ⟨b, c⟩⟩
          · exact .inl ⟨by rw [c, hlog, hl]; rfl, b, key _ a⟩
          · exact .inr (.inr (.inl ⟨x, .inl ⟨d, key _ a, .inl (by rw [e, hlog, hl]; rfl)⟩, b, c⟩))
          · exact .inr (.inl ⟨d, key _ a, by rw [c, hlog, hl]; rfl, b⟩)
        · intro d hd
          have hnd := await_reg_undone P s1 r oo false hrun1 hd
          refine bel_of_not_mem fun hm => ?_
          have h5 := ((hco.finR d).1 (mem_finals.2 hm)).1
          by_cases hdr : d = r
          · subst hdr; rw [hrun] at h5; simp at h5
          · rw [hoth d hdr] at hnd; exact hnd h5
      | waiting =>
        obtain ⟨hfin, ⟨_, h, _⟩ | ⟨d, _, _, h⟩ | ⟨x, hg, _, hi⟩ | ⟨_, _, h⟩⟩ := hat
        · rw [hrun] at h; simp at h
        · rw [hrun] at h; simp at h
        rotate_left
        · rw [hrun] at h; simp at h
        rw [hi] at hu' hac ⊢
        simp only [codeNext, waitNext, doAct] at hu' hac ⊢
        split at hu'
        · rename_i hal
          rw [if_pos hal]
          refine ⟨⟨.signalled, ?_, ⟨x, ?_, ?_, ?_⟩, by simp⟩, ?_⟩
          · simp [State.reply, State.setCoro, State.setW, hac]
          · show GotA h x (hist r s1.log); rw [hlog]; exact hg
          · simp [State.reply, State.setCoro, State.setW, hrun1]
          · simp [State.reply, State.setCoro, State.setW]
          · intro d' hd'; simp [State.reply, State.setCoro, State.setW, hrun1] at hd'
        · simp [State.fail] at hu'
      | signalled =>
        obtain ⟨x, hg, _, hfin⟩ := hat
        simp only [codeNext, waitNext, doAct, doUser] at hu' hac ⊢
        obtain ⟨h1, h2, h3, h4, h5⟩ := self_finish s1 r (.val P.dflt)
        refine ⟨⟨.over, by rw [h1, hac], ⟨h4, x, _, hg, by rw [h5, hlog], ?_⟩, by simp⟩, ?_⟩
        · show (s1.wctx w).fin = _; rw [hwc]; exact hfin
        · intro d' hd'; rw [h4] at hd'; simp at hd'
      | over => obtain ⟨h, _⟩ := hat; rw [hrun] at h; simp at h
    · rw [step_busy P hst hcode rfl hop]
      exact ⟨⟨ph, hcode, hat, hini⟩, hT.belF⟩
  · have hb : ∀ st, s.stack ≠ .body r :: st := fun st hst => hbusy ⟨st, hst⟩
    have hnotinit : ph ≠ .init := fun hp => let ⟨st, tmp, h⟩ := (hini hp).1; hbusy ⟨_, h⟩
    have hfin : ((step P s op).wctx w).fin = (s.wctx w).fin := by
      cases wstep P op hu hu' (.inl hT.wlt) with
      | same cx => rw [cx]
      | done c st code x hop hst hf hc ha hal h =>
        exfalso
        have hcr : c = r := by
          cases code with
          | user u => simp [codeNext] at ha
          | waitRun w' o' ph' =>
            refine hT.uniq c o' ph' ?_
            have : w' = w := by
              simp only [codeNext] at ha
              revert ha; generalize (s.coro c).inp = i
              cases ph' <;> cases i <;> simp [waitNext]
              intro h _; exact h
            rw [hc, this]
          | thenC o' cfg ph' =>
            simp only [codeNext] at ha
            revert ha
            unfold thenNext
            split <;> first | (split <;> first | (split <;> simp) | simp) | simp
        exact hb st (by rw [hst, hcr])
      | ret f st x hop hst hf hx h => rw [h]; simp [State.emit, State.pop, State.setW]
      | exit hop hm h => rw [h]; simp [State.emit, State.setW]
    have mk : ∀ (_ : ((step P s op).coro r).code = (s.coro r).code)
        (_ : WPh P h ((step P s op).coro r).status ((step P s op).coro r).inp (hist r (step P s op).log) (s.wctx w).fin ph),
        (∃ ph, ((step P s op).coro r).code = some (.waitRun w oo ph) ∧
        WPh P h ((step P s op).coro r).status ((step P s op).coro r).inp (hist r (step P s op).log) ((step P s op).wctx w).fin ph ∧
        (ph = .init → (∃ st tmp, (step P s op).stack = .body r :: .waitA w tmp :: st) ∧ (step P s op).aim oo = h)) := by
      intro h1 h2
      exact ⟨ph, by rw [h1, hcode], by rw [hfin]; exact h2, fun hp => absurd hp hnotinit⟩
    cases step_loc P hI hu op hu' hT.lt with
    | act st code hst _ _ hop => exact absurd hst (hb st)
    | ext x st st' inp code tk hi =>
      refine ⟨mk code ?_, by intro d'; rw [st']; simp⟩
      rw [st', inp, hi]
      rw [st] at hat
      cases ph with
      | waiting =>
        obtain ⟨hf, ⟨_, h, _⟩ | ⟨d', hD, hl, h⟩ | ⟨_, _, h, _⟩ | ⟨hD, hl, _⟩⟩ := hat
        · simp at h
        · simp at h
        · simp at h
        · exact ⟨hf, .inr (.inr (.inl ⟨x, .inr ⟨hD, by rw [hl]; rfl⟩, rfl, rfl⟩))⟩
      | _ => simp [WPh] at hat
    | ret x us => have := us _ hcode; simp [userish] at this
    | woken d x st st' inp code owned kind hi =>
      refine ⟨mk code ?_, by intro d'; rw [st']; simp⟩
      rw [st', inp, hi]
      rw [st] at hat
      cases ph with
      | waiting =>
        obtain ⟨hf, ⟨_, h, _⟩ | ⟨d', hD, hl, h⟩ | ⟨_, _, h, _⟩ | ⟨_, _, h⟩⟩ := hat
        · simp at h
        · cases h; exact ⟨hf, .inr (.inr (.inl ⟨x, .inl ⟨d, hD, .inr (by rw [hl]; rfl)⟩, rfl, rfl⟩))⟩
        · simp at h
        · simp at h
      | _ => simp [WPh] at hat
    | same hK =>
      rcases hK.status with hst | ⟨hi, hr, _⟩
      · refine ⟨mk hK.code ?_, by rw [hst]; exact hT.belF⟩
        rw [hst, hK.inp, hK.hist]; exact hat
      · exfalso; rw [hi] at hat
        cases ph <;> simp [WPh] at hat

/-- While the activation of call `w` is on top and no result was reported, the task is unfinished. -/
theorem WT.idle {P : Prog σ V E} {who w r oo h b} {s : State σ V E} (hT : WT P who w r oo h b s) (hI : Inv s) (hL : LInv P s)
    (hfr : ∃ f st, s.stack = f :: st ∧ wOf f = some w) (hn : (s.wctx w).fin = none) :
    Idle h (hist r s.log) (fun d => life d s.log ≠ .done) := by
  have hco := hI.i2.i1.core
  obtain ⟨f, st, hst, hf⟩ := hfr
  obtain ⟨ph, hcode, hat, hini⟩ := hT.at'
  have hnr : (s.coro r).status ≠ .running := by
    intro hr
    have h1 := mem_bodies.1 ((hco.bodyR r).2 hr)
    rw [hst] at h1
    have h2 := hT.bel; rw [hst] at h2
    rcases List.mem_cons.1 h1 with h1 | h1
    · subst h1; simp [wOf] at hf
    · exact h2.top hf h1
  cases ph with
  | init => exact absurd hat.2.1 hnr
  | waiting =>
    obtain ⟨_, ⟨a, _, c⟩ | ⟨d, a, c, e⟩ | ⟨_, _, c, _⟩ | ⟨a, c, _⟩⟩ := hat
    · exact .inl ⟨a, c⟩
    · refine .inr (.inl ⟨d, a, c, fun hd => ?_⟩)
      rw [hL.life] at hd
      have h1 := (hco.pendR d r).2 e
      simp only [pend, hd, if_true] at h1
      have h2 : (s.coro d).selfRef = true := by
        cases hsr : (s.coro d).selfRef with
        | true => rfl
        | false => rw [hco.finE d hsr] at h1; simp at h1
      have h3 := mem_finals.1 ((hco.finR d).2 ⟨hd, h2⟩)
      have h4 := hT.belF d e
      rw [hst] at h3 h4
      rcases List.mem_cons.1 h3 with h3 | h3
      · subst h3; simp [wOf] at hf
      · exact h4.top hf h3
    · exact absurd c hnr
    · exact .inr (.inr ⟨c, a⟩)
  | signalled => obtain ⟨_, _, c, _⟩ := hat; exact absurd c hnr
  | over => obtain ⟨_, _, _, _, _, c⟩ := hat; rw [hn] at c; simp at c

theorem WT_step {P : Prog σ V E} {who w r oo h b} {s : State σ V E} (hT : WT P who w r oo h b s) (hI : Inv s) (hL : LInv P s) (hu : s.ub = none) (op)
    (hu' : (step P s op).ub = none) : WT P who w r oo h b (step P s op) := by
  have hse := seff_step P (s := s) op
  have hco := hI.i2.i1.core
  obtain ⟨hself, hbF⟩ := WT_self hT hI hu op hu'
  have hlt : r < (step P s op).nc := by have := hse.nc; have := hT.lt; omega
  have hok : Chk (okW P w r h b) (step P s op).log := by
    have hidle := hT.idle hI hL
    cases ev_cases P s op with
    | quiet hn => exact hT.ok.noW hn
    | enter w' st hop hst hn he =>
      rw [he]
      refine hT.ok.snoc (e := .loopEnter w') ?_
      rintro rfl
      exact hidle ⟨_, _, hst, rfl⟩ hn
    | exit w' hop hm he => rw [he]; exact hT.ok.snoc (e := .extExit w') trivial
    | ret w' st x hop hst hx he =>
      rw [he]
      show Chk _ ((State.reply _ _ _).log ++ [_])
      rw [reply_log]
      refine hT.ok.snoc (e := .waitRet w' x) ?_
      rintro rfl
      have hfr : ∃ f st, s.stack = f :: st ∧ wOf f = some w' := by
        rcases hst with ⟨h, _⟩ | ⟨h, _⟩
        · exact ⟨_, _, h, rfl⟩
        · exact ⟨_, _, h, rfl⟩
      refine ⟨?_, ?_⟩
      · intro y hy
        have h1 := hT.rt.1 ⟨y, hy⟩
        obtain ⟨f, st, hs, hf⟩ := hfr
        have h2 := hI.i2.w.swf; rw [hs] at h2
        rw [(h2.1 w' hf).2.1] at h1; simp at h1
      · rcases hx with hx | ⟨hx, hv, rfl⟩
        · left
          obtain ⟨ph, hcode, hat, hini⟩ := hT.at'
          cases ph with
          | init => rw [hx] at hat; simp [WPh] at hat
          | waiting => rw [hx] at hat; simp [WPh] at hat
          | signalled =>
            obtain ⟨y, hg, _, hf⟩ := hat
            rw [hx] at hf; cases hf
            exact ⟨_, [], hg, by simp⟩
          | over =>
            obtain ⟨_, y, p, hg, hl, hf⟩ := hat
            rw [hx] at hf; cases hf
            exact ⟨p, _, hg, hl⟩
        · right
          refine ⟨?_, by rw [← hT.vd]; exact hv, rfl, hidle hfr hx⟩
          rcases hst with ⟨_, h⟩ | ⟨_, h⟩
          · rw [hx] at h; simp at h
          · rcases hT.ex.1 h with h | h
            · rw [hx] at h; simp at h
            · exact h
  have memq : ∀ e : Ev V E, evW e = true → NoWEv s.log (step P s op).log → (e ∈ (step P s op).log ↔ e ∈ s.log) := by
    rintro e he ⟨evs, h1, h2⟩
    rw [h1, List.mem_append]
    constructor
    · rintro (h | h)
      · exact h
      · have := h2 e h; rw [he] at this; simp at this
    · exact .inl
  have ofRet : ∀ x f st, s.stack = f :: st →
      step P s op = (((s.setW w { s.wctx w with alive := false }).pop).reply (s.wctx w).caller (.res x)).emit (.waitRet w x) → WT P who w r oo h b (step P s op) := by
    intro x f st hst he
    have hstk : StkTo w s (step P s op) := ⟨[], by simp [NoW], .inr (.inl (by rw [he]; simp [State.emit, State.pop, State.setW]))⟩
    have hcd : ∀ c, ((step P s op).coro c).code = (s.coro c).code := by
      intro c; rw [he]
      exact code_reply ((s.setW w { s.wctx w with alive := false }).pop) _ _ c
    refine ⟨hlt, by rw [he]; have := hT.wlt; simpa [State.emit, State.pop, State.setW] using this, by rw [he]; simpa [State.emit, State.pop, State.setW] using hT.vd, by rw [he]; simpa [State.emit, State.pop, State.setW] using hT.cl, ?_, hT.bel.to hstk, fun d hd => (hbF d hd).to hstk, hself, ?_, ?_, hok⟩
    · intro c o ph hc; rw [hcd] at hc; exact hT.uniq c o ph hc
    · rw [he]; simpa [State.emit, State.pop, State.setW] using hT.ex
    · rw [he]; simp [State.emit, State.pop, State.setW]
  have ofExit : step P s op = (s.setW w { s.wctx w with exit := true }).emit (.extExit w) → WT P who w r oo h b (step P s op) := by
    intro he
    have hstk : StkTo w s (step P s op) := ⟨[], by simp [NoW], .inl (by rw [he]; rfl)⟩
    refine ⟨hlt, by rw [he]; exact hT.wlt, by rw [he]; simpa [State.emit, State.setW] using hT.vd, by rw [he]; simpa [State.emit, State.setW] using hT.cl, ?_, hT.bel.to hstk, fun d hd => (hbF d hd).to hstk, hself, ?_, ?_, hok⟩
    · intro c o ph hc; rw [he] at hc; exact hT.uniq c o ph hc
    · rw [he]; simp [State.emit, State.setW]
    · rw [he]; simpa [State.emit, State.setW] using hT.rt
  have gen : ((Ev.extExit w ∈ (step P s op).log ↔ Ev.extExit w ∈ s.log) ∧ ∀ y, (Ev.waitRet w y ∈ (step P s op).log ↔ Ev.waitRet w y ∈ s.log)) →
      WT P who w r oo h b (step P s op) := by
    intro hev
    cases wstep P op hu hu' (.inl hT.wlt) with
    | same cx nw stk code =>
      refine ⟨hlt, by have := hT.wlt; omega, by rw [cx]; exact hT.vd, by rw [cx]; exact hT.cl, ?_, hT.bel.to stk, fun d hd => (hbF d hd).to stk, hself, ?_, ?_, hok⟩
      · intro c o ph hc
        obtain ⟨o', ph', h1⟩ := code c o ph hc
        exact hT.uniq c o' ph' h1
      · rw [cx, hT.ex, hev.1]
      · rw [cx, ← hT.rt]; simp only [hev.2]
    | done c st code x hop hst hf hc ha hal he =>
      have hstk : StkTo w s (step P s op) := ⟨[], by simp [NoW], .inl (by rw [he]; rfl)⟩
      refine ⟨hlt, by rw [he]; exact hT.wlt, by rw [he]; simpa [State.reply, State.setCoro, State.setW] using hT.vd, by rw [he]; simpa [State.reply, State.setCoro, State.setW] using hT.cl, ?_, hT.bel.to hstk, fun d hd => (hbF d hd).to hstk, hself, ?_, ?_, hok⟩
      · intro c' o ph hc'
        rw [he] at hc'
        have h1 : ((actState P s c code).coro c').code = some (.waitRun w o ph) := by
          rw [← hc']; exact (code_reply ((actState P s c code).setW w { s.wctx w with fin := some x, exit := true }) (some c) _ c').symm
        obtain ⟨o', ph', h2⟩ := WC.act hc c' o ph h1
        exact hT.uniq c' o' ph' h2
      · rw [he]; simp [State.reply, State.setCoro, State.setW]
      · simp only [hev.2]
        rw [hT.rt, he]; simp [State.reply, State.setCoro, State.setW]
    | ret f st x hop hst hf hx he => exact ofRet x f st hst he
    | exit hop hm he => exact ofExit he
  cases ev_cases P s op with
  | quiet hn => exact gen ⟨memq _ rfl hn, fun y => memq _ rfl hn⟩
  | enter w' st hop hst hn he => refine gen ?_; rw [he]; simp [State.emit, State.push, State.pop]
  | exit w' hop hm he =>
    by_cases hww : w' = w
    · subst hww; exact ofExit he
    · refine gen ?_; rw [he]; simp [State.emit, State.setW, Ne.symm hww]
  | ret w' st x hop hst hx he =>
    by_cases hww : w' = w
    · subst hww
      rcases hst with ⟨h1, _⟩ | ⟨h1, _⟩
      · exact ofRet x _ _ h1 he
      · exact ofRet x _ _ h1 he
    · refine gen ?_; rw [he]; simp [State.emit, State.setW, State.pop, Ne.symm hww]

/-- In state `s`, `op` calls `waitFor`, on a Task that holds coroutine `c` (`h = .task (some c)`), on an empty Task (`.task none`) or on an
awaitable that is not a Task (`.ext`): call number `w`, runner coroutine `r`; `b`: the Task is a
`Task<void>`; the caller is `who` (`none`: the main program or an event handler, `some c`: coroutine `c`). -/
inductive Waits (P : Prog σ V E) (s : State σ V E) (op : Op σ V E) : Option Nat → Nat → Nat → Aim → Bool → Prop
  | mk (who o b) (h : Performs P s op who (.waitFor o b)) : Waits P s op who s.nw s.nc (s.aim o) b

/-- Nothing happened yet to a call that was not made. -/
def EvFresh (s : State σ V E) : Prop := ∀ w, s.nw ≤ w → .loopEnter w ∉ s.log ∧ .extExit w ∉ s.log ∧ ∀ x, .waitRet w x ∉ s.log

theorem waits_lt {s : State σ V E} {st} (h : SWF s st) {w} (hw : w ∈ waits st) : w < s.nw := by
  induction st with
  | nil => simp [waits] at hw
  | cons f rest ih =>
    obtain ⟨g1, g2⟩ := h
    simp only [waits, List.filterMap_cons] at hw
    split at hw
    · exact ih g2 hw
    · rename_i w' hf
      simp at hw
      rcases hw with rfl | hw
      · exact (g1 w hf).1
      · exact ih g2 (by simpa [waits] using hw)

theorem nw_mono (P : Prog σ V E) {s : State σ V E} (hI : Inv s) (op) (hu : s.ub = none) (hu' : (step P s op).ub = none) : s.nw ≤ (step P s op).nw := by
  by_cases h0 : s.nw = 0
  · omega
  · have hw : s.nw - 1 < s.nw := by omega
    cases wstep P op hu hu' (.inl hw) with
    | same _ nw => exact nw
    | done c st code x hop hst hf hc ha hal he => rw [he]; exact Nat.le_refl _
    | ret f st x hop hst hf hx he => rw [he]; simp [State.emit, State.setW, State.pop]
    | exit hop hm he => rw [he]; exact Nat.le_refl _

theorem fresh_step (P : Prog σ V E) {s : State σ V E} (h : EvFresh s) (hI : Inv s) (op) (hu : s.ub = none) (hu' : (step P s op).ub = none) :
    EvFresh (step P s op) := by
  intro w hw
  have hw0 : s.nw ≤ w := Nat.le_trans (nw_mono P hI op hu hu') hw
  obtain ⟨a1, a2, a3⟩ := h w hw0
  have hmem : ∀ w' f, f ∈ s.stack → wOf f = some w' → w' ≠ w := by
    intro w' f hf hwf
    have := waits_lt hI.i2.w.swf (w := w') (List.mem_filterMap.2 ⟨f, hf, hwf⟩)
    omega
  cases ev_cases P s op with
  | quiet hn =>
    obtain ⟨evs, h1, h2⟩ := hn
    rw [h1]
    have key : ∀ e : Ev V E, evW e = true → e ∉ s.log → e ∉ s.log ++ evs := by
      intro e he hn hm
      rcases List.mem_append.1 hm with hm | hm
      · exact hn hm
      · have := h2 e hm; rw [he] at this; simp at this
    exact ⟨key _ rfl a1, key _ rfl a2, fun x => key _ rfl (a3 x)⟩
  | enter w' st hop hst hn he =>
    have := hmem w' (.waitB w') (by rw [hst]; simp) rfl
    rw [he]; simp [State.emit, State.push, State.pop, Ne.symm this, a1, a2, a3]
  | exit w' hop hm he =>
    have := hmem w' (.loop w') hm rfl
    rw [he]; simp [State.emit, State.setW, Ne.symm this, a1, a2, a3]
  | ret w' st x hop hst hx he =>
    have : w' ≠ w := by
      rcases hst with ⟨h1, _⟩ | ⟨h1, _⟩
      · exact hmem w' (.waitB w') (by rw [h1]; simp) rfl
      · exact hmem w' (.loop w') (by rw [h1]; simp) rfl
    rw [he]; simp [State.emit, State.setW, State.pop, Ne.symm this, a1, a2, a3]

theorem exec_fresh (P : Prog σ V E) (ops) (hu : (exec P ops).ub = none) : EvFresh (exec P ops) := by
  induction ops using QCoro.snocInd with
  | nil => intro w _; simp [exec, init]
  | snoc l x ih =>
    have hul : (exec P l).ub = none := exec_ub_prefix _ [x] hu
    rw [exec_snoc] at hu ⊢
    exact fresh_step P (ih hul) (exec_inv P _ hul) x hul hu

/-- No runner of a call that was not made. -/
def RunFresh (s : State σ V E) : Prop := ∀ w, s.nw ≤ w → ∀ c o ph, (s.coro c).code ≠ some (.waitRun w o ph)

theorem runFresh_exec (P : Prog σ V E) (ops) (hu : (exec P ops).ub = none) : RunFresh (exec P ops) := by
  induction ops using QCoro.snocInd with
  | nil => intro w _ c o ph; simp [exec, init]
  | snoc l x ih =>
    have hul : (exec P l).ub = none := exec_ub_prefix _ [x] hu
    have ih := ih hul
    have hI := exec_inv P _ hul
    rw [exec_snoc] at hu ⊢
    generalize exec P l = s at *
    intro w hw c o ph hc
    have hw0 : s.nw ≤ w := Nat.le_trans (nw_mono P hI x hul hu) hw
    have hmem : ∀ f, f ∈ s.stack → wOf f ≠ some w := by
      intro f hf hwf
      have := waits_lt hI.i2.w.swf (w := w) (List.mem_filterMap.2 ⟨f, hf, hwf⟩)
      omega
    cases wstep P x hul hu (.inr hw) with
    | same _ _ _ code =>
      obtain ⟨o', ph', h1⟩ := code c o ph hc
      exact ih w hw0 c o' ph' h1
    | done c' st code x hop hst hf hc' ha hal he =>
      have := hI.i2.w.fresh w hw0; rw [this] at hal; simp at hal
    | ret f st x hop hst hf hx he =>
      refine hmem f (by rw [hst]; simp) ?_
      rcases hf with rfl | rfl <;> rfl
    | exit hop hm he => exact hmem _ hm rfl

theorem Performs.stepW {P : Prog σ V E} {s : State σ V E} {op who a} (h : Performs P s op who a) (w : Nat) :
    ∃ s1 : State σ V E, Task.step P s op = doUser P s1 who a ∧ s1.log = s.log ∧ s1.obj = s.obj ∧ s1.nc = s.nc ∧ s1.no = s.no ∧
      s1.stack = s.stack ∧ s1.nw = s.nw ∧ s1.wctx = s.wctx ∧ WC w s s1 := by
  obtain ⟨hu, ⟨rfl, rfl, hl⟩ | ⟨c, st, code, rfl, rfl, hst, hf, hc, ha⟩⟩ := h
  · exact ⟨s, by simp [Task.step, hu, hl], rfl, rfl, rfl, rfl, rfl, rfl, rfl, WC.refl _ _⟩
  · refine ⟨actState P s c code, ?_, rfl, rfl, rfl, rfl, rfl, rfl, rfl, WC.act hc⟩
    rw [step_run_body hu hst hf hc, ha]; rfl

theorem noW_of_lt {s : State σ V E} {st} (h : SWF s st) {w} (hw : s.nw ≤ w) : NoW w st := by
  intro f hf hwf
  have := waits_lt h (w := w) (List.mem_filterMap.2 ⟨f, hf, hwf⟩)
  omega

theorem bel_noW {w p st} (h : NoW w st) : Bel w p st := by
  induction st with
  | nil => trivial
  | cons f st ih => exact ⟨fun hf => absurd hf (h f (by simp)), ih fun g hg => h g (by simp [hg])⟩

theorem performs_WT {P : Prog σ V E} {ops op who o b} (hp : Performs P (exec P ops) op who (.waitFor o b)) (hu1 : (exec P (ops ++ [op])).ub = none) :
    WT P who (exec P ops).nw (exec P ops).nc o ((exec P ops).aim o) b (exec P (ops ++ [op])) := by
  have hu0 := exec_ub_prefix _ _ hu1
  have hI := exec_inv P ops hu0
  have hL := exec_linv P ops
  have hEF := exec_fresh P ops hu0
  have hRF := runFresh_exec P ops hu0
  rw [exec_snoc] at hu1 ⊢
  generalize exec P ops = s at *
  have hco := hI.i2.i1.core
  have hun : hist s.nc s.log = [] := hist_unborn hL (by rw [hL.life, hco.corB _ (Nat.le_refl _)])
  obtain ⟨s1, hs, hl, ho, hnc, hno, hstk, hnw, hwc, hWC⟩ := hp.stepW s.nw
  rw [hs] at hu1 ⊢
  simp only [doUser] at hu1 ⊢
  split at hu1
  · rename_i hx; rw [if_pos hx]
    have hlt : ∀ o', o = .task o' → o' < s.no := by
      rintro o' rfl; exact hco.aliveLt (by simp [State.usableArg, State.usable] at hx; rw [← ho]; exact hx.1)
    have hbl : Frame.body s.nc ∉ s.stack := by
      intro hm
      have := hco.bodyLt (mem_bodies.2 hm); omega
    have hnoW := noW_of_lt hI.i2.w.swf (Nat.le_refl s.nw)
    have haim : s1.aim o = s.aim o := by cases o <;> simp [State.aim, ho]
    obtain ⟨b1, hb1⟩ : ∃ b1 : State σ V E, b1 = (({ s1.setW s1.nw { alive := true, isVoid := b, caller := who } with nw := s1.nw + 1 } : State σ V E).emit (.waitCall s1.nw s1.nc (s1.aim o))).push (.waitA s1.nw s1.no) := ⟨_, rfl⟩
    have e1 : b1.nc = s.nc := by rw [hb1, ← hnc]; rfl
    have e2 : b1.no = s.no := by rw [hb1, ← hno]; rfl
    have e3 : b1.nw = s.nw + 1 := by rw [hb1, ← hnw]; rfl
    have e4 : b1.stack = .waitA s.nw s.no :: s.stack := by rw [hb1, ← hnw, ← hno, ← hstk]; rfl
    have e5 : b1.log = s.log ++ [.waitCall s.nw s.nc (s.aim o)] := by rw [hb1, ← hnw, ← hnc, ← hl, ← haim]; rfl
    have e6 : b1.wctx s.nw = { alive := true, isVoid := b, caller := who } := by rw [hb1, ← hnw]; simp [State.push, State.emit, State.setW]
    have e7 : b1.obj = s.obj := by rw [hb1, ← ho]; rfl
    have e8 : ∀ c, b1.coro c = s1.coro c := by intro c; rw [hb1]; rfl
    show WT P who s.nw s.nc o (s.aim o) b (spawn P ((({ s1.setW s1.nw { alive := true, isVoid := b, caller := who } with nw := s1.nw + 1 } : State σ V E).emit (.waitCall s1.nw s1.nc (s1.aim o))).push (.waitA s1.nw s1.no)) .eager (.waitRun s1.nw o .init) [] P.dflt .stk)
    rw [← hb1, hnw]
    obtain ⟨a1, a2, a3, a4, a5, a6, a7, a8, a9⟩ := spawn_new P b1 .eager (.waitRun s.nw o .init) [] P.dflt .stk
    obtain ⟨w1, w2⟩ := spawn_w P b1 .eager (.waitRun s.nw o .init) [] P.dflt .stk
    have hlog : (spawn P b1 .eager (.waitRun s.nw o .init) [] P.dflt .stk).log = s.log ++ [.waitCall s.nw s.nc (s.aim o), .spawned s.nc .eager, .started s.nc] := by
      show (b1.log ++ [_]) ++ [_] = _
      rw [e5, e1]; simp
    have hcoro : ∀ c, c ≠ s.nc → (spawn P b1 .eager (.waitRun s.nw o .init) [] P.dflt .stk).coro c = b1.coro c := by
      intro c hc; simp [spawn, State.push, State.emit, State.setCoro, State.setObj, e1, hc]
    rw [e1] at a1 a2 a3 a4 a5 a7 a9
    rw [e2] at a6 a8
    generalize spawn P b1 .eager (.waitRun s.nw o .init) [] P.dflt .stk = s' at *
    have hst' := a5 rfl
    rw [e4] at hst'
    obtain ⟨f1, f2, f3⟩ := hEF s.nw (Nat.le_refl _)
    refine ⟨by omega, by omega, by rw [w1, e6], by rw [w1, e6], ?_, ?_, ?_, ⟨.init, a1, ⟨?_, a4, by rw [w1, e6]⟩, fun _ => ⟨⟨_, _, hst'⟩, by
      cases o with
      | ext now => rfl
      | task o' => have := hlt o' rfl; simp only [State.aim]; rw [a6 o' (by omega), e7]⟩⟩, ?_, ?_, ?_⟩
    · intro c o' ph hc
      by_cases hcn : c = s.nc
      · exact hcn
      · exfalso
        rw [hcoro c hcn, e8] at hc
        obtain ⟨o2, ph2, h2⟩ := hWC c o' ph hc
        exact hRF s.nw (Nat.le_refl _) c o2 ph2 h2
    · rw [hst']
      exact ⟨by simp [wOf], fun _ => hbl, bel_noW hnoW⟩
    · intro d hd; rw [a4] at hd; simp at hd
    · rw [a9, e5, hist_snoc, hun]; simp [hev]
    · rw [w1, e6, hlog]; simp [f2]
    · rw [w1, e6, hlog]; simp [f3]
    · have h0 : Chk (okW P s.nw s.nc (s.aim o) b) s.log := by
        intro pre e post he
        have hm : e ∈ s.log := by rw [he]; simp
        cases e <;> simp only [okW]
        · rintro rfl; exact absurd hm f1
        · rintro rfl; exact absurd hm (f3 _)
      exact h0.noW ⟨_, hlog, by simp [evW]⟩
  · simp [State.fail] at hu1

theorem waits_WT {P : Prog σ V E} {ops op who w r h b} (hm : Waits P (exec P ops) op who w r h b) (hu1 : (exec P (ops ++ [op])).ub = none) :
    ∃ oo, WT P who w r oo h b (exec P (ops ++ [op])) := by
  cases hm
  rename_i o hp
  exact ⟨o, performs_WT hp hu1⟩

theorem WT_exec {P : Prog σ V E} {who w r oo h b l} (h1 : WT P who w r oo h b (exec P l)) (l') (hu : (exec P (l ++ l')).ub = none) :
    WT P who w r oo h b (exec P (l ++ l')) := by
  induction l' using QCoro.snocInd with
  | nil => rw [List.append_nil]; exact h1
  | snoc l' x ih =>
    have hul : (exec P (l ++ l')).ub = none := exec_ub_prefix _ [x] (by simpa using hu)
    rw [← List.append_assoc, exec_snoc] at hu ⊢
    exact WT_step (ih hul) (exec_inv P _ hul) (exec_linv P _) hul x hu

/-- The invariant holds from the call on. -/
theorem waits_exec {P : Prog σ V E} {ops op ops' who w r h b} (hm : Waits P (exec P ops) op who w r h b) (hu : (exec P (ops ++ op :: ops')).ub = none) :
    ∃ oo, WT P who w r oo h b (exec P (ops ++ op :: ops')) := by
  have hsplit : ops ++ op :: ops' = (ops ++ [op]) ++ ops' := by simp
  rw [hsplit] at hu ⊢
  obtain ⟨oo, h1⟩ := waits_WT hm (exec_ub_prefix _ _ hu)
  exact ⟨oo, WT_exec h1 ops' hu⟩

end QCoro.Task
