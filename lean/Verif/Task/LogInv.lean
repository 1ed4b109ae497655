import Verif.Task.Hidden
import Verif.Task.Trace

/-! The machine's state agrees with its trace, and every event it emits is legal. -/
namespace QCoro.Task
variable {σ V E : Type}

/-- The stored result is what is left of the completion after the awaits so far. -/
def ResOK (P : Prog σ V E) (d : Nat) (log : List (Ev V E)) : Option (Res V E) → Prop
  | none => fins d log = [] ∧ gots d log = []
  | some r => ∃ r0, fins d log = [r0] ∧ r = readN P (gots d log).length r0

structure LInv (P : Prog σ V E) (s : State σ V E) : Prop where
  life : ∀ c, life c s.log = (s.coro c).status
  rg : ∀ d, regs d s.log = woken d s.log ++ pend (s.coro d)
  rs : ∀ d, ResOK P d s.log (s.coro d).result
  ds : ∀ c, .destroyed c ∈ s.log ↔ (s.coro c).freed = true
  qa : ∀ q, .ctxDel q ∈ s.log ↔ s.qalive q = false
  kd : ∀ c k, .spawned c k ∈ s.log ↔ (c < s.nc ∧ (s.coro c).kind = k)
  ok : Chk (legal P) s.log

theorem linv_init (P : Prog σ V E) : LInv P init := by
  constructor <;> simp [init, ResOK, pend]
  exact Chk.nil

structure LEq (x y : Coro σ V E) : Prop where
  status : x.status = y.status
  awaiters : x.awaiters = y.awaiters
  fin : x.fin = y.fin
  result : x.result = y.result
  freed : x.freed = y.freed
  kind : x.kind = y.kind

theorem LEq.refl (x : Coro σ V E) : LEq x x := ⟨rfl, rfl, rfl, rfl, rfl, rfl⟩

theorem LInv.congr {P : Prog σ V E} {s s' : State σ V E} (h : LInv P s) (hl : s'.log = s.log)
    (hc : ∀ c, LEq (s'.coro c) (s.coro c)) (hn : s'.nc = s.nc) (hq : s'.qalive = s.qalive) : LInv P s' := by
  obtain ⟨a1,a2,a3,a4,a5,a6,a7⟩ := h
  have hp : ∀ c, pend (s'.coro c) = pend (s.coro c) := fun c => by
    simp [pend, (hc c).status, (hc c).fin, (hc c).awaiters]
  constructor
  · intro c; rw [hl, (hc c).status]; exact a1 c
  · intro c; rw [hl, hp]; exact a2 c
  · intro c; rw [hl, (hc c).result]; exact a3 c
  · intro c; rw [hl, (hc c).freed]; exact a4 c
  · intro c; rw [hl, hq]; exact a5 c
  · intro c; rw [hl, hn, (hc c).kind]; exact a6 c
  · rw [hl]; exact a7

/-- Events that concern neither life cycle, awaits nor contexts. -/
def silent : Ev V E → Prop
  | .thenMade _ _ _ => True
  | .cb _ _ => True
  | .err _ _ => True
  | .cbTask _ _ => True
  | .guardDead _ => True
  | .ready _ _ _ => True
  | .waitCall _ _ _ => True
  | .loopEnter _ => True
  | .waitRet _ _ => True
  | .extExit _ => True
  | .note _ _ => True
  | _ => False

theorem LInv.emitSilent {P : Prog σ V E} {s : State σ V E} (h : LInv P s) {e} (he : silent e) (hok : legal P s.log e) :
    LInv P (s.emit e) := by
  obtain ⟨a1,a2,a3,a4,a5,a6,a7⟩ := h
  constructor
  · intro c; simp only [State.emit, life_snoc, ← a1 c]; cases e <;> simp [silent] at he <;> rfl
  · intro c; simp only [State.emit, regs_snoc, woken_snoc, a2 c]; cases e <;> simp [silent] at he <;> simp
  · intro c
    have := a3 c
    unfold ResOK at this ⊢
    simp only [State.emit, fins_snoc, gots_snoc]
    cases e <;> simp [silent] at he <;> simpa using this
  · intro c; simp only [State.emit, List.mem_append, ← a4 c]; cases e <;> simp [silent] at he <;> simp
  · intro c; simp only [State.emit, List.mem_append, ← a5 c]; cases e <;> simp [silent] at he <;> simp
  · intro c k; simp only [State.emit, List.mem_append, ← a6 c k]; cases e <;> simp [silent] at he <;> simp
  · exact a7.snoc hok

theorem LInv.setEq {P : Prog σ V E} {s : State σ V E} (h : LInv P s) {c} {x : Coro σ V E} (hx : LEq x (s.coro c)) :
    LInv P (s.setCoro c x) := by
  refine h.congr rfl ?_ rfl rfl
  intro i; simp only [State.setCoro]; split
  · rename_i hi; subst hi; exact hx
  · exact LEq.refl _

theorem LInv.reply {P : Prog σ V E} {s : State σ V E} (h : LInv P s) (who i) : LInv P (s.reply who i) := by
  cases who with
  | none => exact h
  | some c => exact h.setEq ⟨rfl, rfl, rfl, rfl, rfl, rfl⟩

theorem LInv.same {P : Prog σ V E} {s s' : State σ V E} (h : LInv P s) (hl : s'.log = s.log)
    (hc : s'.coro = s.coro) (hn : s'.nc = s.nc) (hq : s'.qalive = s.qalive) : LInv P s' :=
  h.congr hl (fun c => by rw [hc]; exact LEq.refl _) hn hq

theorem LInv.deref {P : Prog σ V E} {s : State σ V E} {c} (h : LInv P s) (hc : CoreD s (some c)) : LInv P (deref s c) := by
  obtain ⟨hlt, hf⟩ := hc.dOk c rfl
  obtain ⟨hrc, hpos⟩ := hc.rcOk c hlt hf
  simp at hrc
  unfold Task.deref
  split
  · exact h.same rfl rfl rfl rfl
  split
  · exact h.same rfl rfl rfl rfl
  · rename_i h1
    split
    · exact h.same rfl rfl rfl rfl
    · have hsr : (s.coro c).selfRef = false := by
        cases hs : (s.coro c).selfRef with
        | false => rfl
        | true => simp [hs] at hrc; omega
      have hdone := hc.selfD c hlt hsr
      have hfin := hc.finE c hsr
      obtain ⟨a1,a2,a3,a4,a5,a6,a7⟩ := h
      have hok : legal P s.log (.destroyed c) := by
        refine ⟨by rw [a1, hdone], ?_, ?_⟩
        · rw [a4, hf]; simp
        · rw [a2]; simp [pend, hdone, hfin]
      constructor
      · intro i; simp only [State.push, State.emit, State.setCoro, life_snoc, lifeStep]; grind
      · intro i; simp only [State.push, State.emit, State.setCoro, regs_snoc, woken_snoc, List.append_nil]
        rw [a2]; split
        · rename_i hi; subst hi; rfl
        · rfl
      · intro i
        have := a3 i
        simp only [ResOK] at this
        simp only [State.push, State.emit, State.setCoro, ResOK, fins_snoc, gots_snoc, List.append_nil]
        by_cases hi : i = c
        · subst hi; simpa using this
        · simpa [hi] using this
      · intro i; simp only [State.push, State.emit, State.setCoro, List.mem_append, a4]; grind
      · intro i; simp only [State.push, State.emit, State.setCoro, List.mem_append, a5]; grind
      · intro i k; simp only [State.push, State.emit, State.setCoro, List.mem_append, a6]; grind
      · exact a7.snoc hok
  · exact h.setEq ⟨rfl, rfl, rfl, rfl, rfl, rfl⟩

theorem LInv.dropObj {P : Prog σ V E} {s : State σ V E} {o} (h : LInv P s) (hc : Core s) : LInv P (dropObj s o) := by
  unfold Task.dropObj
  split
  · exact h.same rfl rfl rfl rfl
  · rename_i c hh
    exact (h.same (s' := s.setObj o { s.obj o with alive := false, handle := none }) rfl rfl rfl rfl).deref
      (hc.takeHandle hh false)

theorem LInv.spawn {P : Prog σ V E} {s : State σ V E} {k code ps v own} (h : LInv P s) (hc : Core s) :
    LInv P (spawn P s k code ps v own) := by
  have hf := hc.corB s.nc (Nat.le_refl _)
  obtain ⟨a1,a2,a3,a4,a5,a6,a7⟩ := h
  have h1 : legal P s.log (.spawned s.nc k) := by simp [legal, a1, hf]
  unfold Task.spawn
  cases k with
  | lazy =>
    simp only [State.push, State.emit, State.setCoro, State.setObj]
    constructor
    · intro i; simp only [life_snoc, lifeStep]; grind
    · intro i; simp only [regs_snoc, woken_snoc, pend]; have := a2 i; simp only [pend] at this; grind
    · intro i; simp only [fins_snoc, gots_snoc, ResOK]; have := a3 i; simp only [ResOK] at this; grind
    · intro i; simp only [List.mem_append, a4]; grind
    · intro i; simp only [List.mem_append, a5]; grind
    · intro i k; simp only [List.mem_append, a6]; grind
    · exact a7.snoc h1
  | eager =>
    simp only [State.push, State.emit, State.setCoro, State.setObj]
    constructor
    · intro i; simp only [life_snoc, lifeStep]; grind
    · intro i; simp only [regs_snoc, woken_snoc, pend]; have := a2 i; simp only [pend] at this; grind
    · intro i; simp only [fins_snoc, gots_snoc, ResOK]; have := a3 i; simp only [ResOK] at this; grind
    · intro i; simp only [List.mem_append, a4]; grind
    · intro i; simp only [List.mem_append, a5]; grind
    · intro i k; simp only [List.mem_append, a6]; grind
    · refine (a7.snoc h1).snoc ?_
      exact ⟨by simp [lifeStep], Or.inl ⟨_, rfl⟩⟩

theorem LInv.moveObj {P : Prog σ V E} {s : State σ V E} (h : LInv P s) (o own) : LInv P (moveObj s o own) :=
  h.same rfl rfl rfl rfl

theorem moveArgs_L (as : List Nat) {P : Prog σ V E} : ∀ {s : State σ V E}, LInv P s → LInv P (moveArgs s as).1 := by
  induction as with
  | nil => intro s h; exact h
  | cons a as ih =>
    intro s h
    simp only [moveArgs]
    split
    · exact ih (h.moveObj _ _)
    · exact h.same rfl rfl rfl rfl

/-- A running coroutine suspends. -/
theorem LInv.suspend {P : Prog σ V E} {s : State σ V E} {a q e} (h : LInv P s) (hr : (s.coro a).status = .running)
    (hq : (q = .waitNull ∧ e = Ev.hung a) ∨ (q = .waitExt ∧ e = .extSusp a)) :
    LInv P (((s.setCoro a { s.coro a with status := q }).emit e).pop) := by
  obtain ⟨a1,a2,a3,a4,a5,a6,a7⟩ := h
  have hok : legal P s.log e := by rcases hq with ⟨rfl, rfl⟩ | ⟨rfl, rfl⟩ <;> simp [legal, a1, hr]
  constructor
  · intro i; have := a1 i; simp only [State.pop, State.emit, State.setCoro, life_snoc]
    rcases hq with ⟨rfl, rfl⟩ | ⟨rfl, rfl⟩ <;> simp only [lifeStep] <;> grind
  · intro i; have := a2 i; simp only [pend] at this
    simp only [State.pop, State.emit, State.setCoro, regs_snoc, woken_snoc, pend]
    rcases hq with ⟨rfl, rfl⟩ | ⟨rfl, rfl⟩ <;> grind
  · intro i; have := a3 i; simp only [ResOK] at this
    simp only [State.pop, State.emit, State.setCoro, fins_snoc, gots_snoc, ResOK]
    rcases hq with ⟨rfl, rfl⟩ | ⟨rfl, rfl⟩ <;> grind
  · intro i; simp only [State.pop, State.emit, State.setCoro, List.mem_append, a4]
    rcases hq with ⟨rfl, rfl⟩ | ⟨rfl, rfl⟩ <;> grind
  · intro i; simp only [State.pop, State.emit, State.setCoro, List.mem_append, a5]
    rcases hq with ⟨rfl, rfl⟩ | ⟨rfl, rfl⟩ <;> grind
  · intro i k; simp only [State.pop, State.emit, State.setCoro, List.mem_append, a6]
    rcases hq with ⟨rfl, rfl⟩ | ⟨rfl, rfl⟩ <;> grind
  · exact a7.snoc hok

/-- A running coroutine awaits something that is ready. -/
theorem LInv.awaitNow {P : Prog σ V E} {s : State σ V E} {a} (h : LInv P s) (hr : (s.coro a).status = .running) (r) :
    LInv P ((s.emit (.extSusp a)).emit (.extRes a r)) := by
  obtain ⟨a1,a2,a3,a4,a5,a6,a7⟩ := h
  have hok : legal P s.log (.extSusp a) := by simp [legal, a1, hr]
  have hok2 : legal P (s.log ++ [.extSusp a]) (.extRes a r) := by simp [legal, life_snoc, lifeStep]
  simp only [State.emit]
  constructor
  · intro i; have := a1 i; simp only [life_snoc, lifeStep]; grind
  · intro i; have := a2 i; simp only [pend] at this; simp only [regs_snoc, woken_snoc, pend]; grind
  · intro i; have := a3 i; simp only [ResOK] at this; simp only [fins_snoc, gots_snoc, ResOK]; grind
  · intro i; have := a4 i; simp only [List.mem_append, this]; grind
  · intro i; have := a5 i; simp only [List.mem_append, this]; grind
  · intro i k; have := a6 i k; simp only [List.mem_append, this]; grind
  · exact (a7.snoc hok).snoc hok2

theorem awaitObj_L {P : Prog σ V E} {s : State σ V E} {a o priv} (h : LInv P s) (hc : Core s) (ha : Actor s (some a)) :
    LInv P (awaitObj P s a o priv) := by
  have hr := ha.runs hc a rfl
  unfold awaitObj
  split
  · split
    · split
      · exact h.suspend hr (Or.inl ⟨rfl, rfl⟩)
      · exact h.same rfl rfl rfl rfl
    · rename_i d hd
      obtain ⟨hdl, hdf, hdk⟩ := hc.hOk o d hd
      have hdb := hc.born d hdl
      split
      · exact h.same rfl rfl rfl rfl
      split
      · rename_i hdone
        split
        · exact h.same rfl rfl rfl rfl
        · rename_i r hres
          obtain ⟨a1,a2,a3,a4,a5,a6,a7⟩ := h
          have hrs := a3 d
          rw [hres] at hrs
          have hok : legal P s.log (.gotReady a d r) := by
            refine ⟨by rw [a1, hr], by rw [a1, hdone], by rw [a4, hdf]; simp, ?_⟩
            exact hrs
          have hne : a ≠ d := by rintro rfl; simp [hr] at hdone
          simp only [State.emit, State.reply, State.setCoro]
          constructor
          · intro i; have := a1 i; simp only [life_snoc, lifeStep]; grind
          · intro i; have := a2 i; simp only [pend] at this; simp only [regs_snoc, woken_snoc, pend]; grind
          · intro i; have := a3 i; simp only [ResOK] at this hrs
            simp only [fins_snoc, gots_snoc, ResOK]
            by_cases hia : i = a
            · subst hia; simp [hne, Ne.symm hne]; exact this
            · by_cases hid : i = d
              · subst hid
                obtain ⟨r0, e1, e2⟩ := hrs
                simp [hia]
                exact ⟨r0, e1, by rw [e2]; rfl⟩
              · simp [hia, hid, Ne.symm hid]; exact this
          · intro i; have := a4 i; simp only [List.mem_append, this]; grind
          · intro i; have := a5 i; simp only [List.mem_append, this]; grind
          · intro i k; have := a6 i k; simp only [List.mem_append, this]; grind
          · exact a7.snoc hok
      · rename_i hnd
        obtain ⟨a1,a2,a3,a4,a5,a6,a7⟩ := h
        have hrd : (s.coro d).result = none := by
          have := hc.resD d
          cases hx : (s.coro d).result with
          | none => rfl
          | some r => rw [hx] at this; simp at this; exact absurd this hnd
        split
        · rename_i hk
          have hok : legal P s.log (.awaitReg a d) := by
            refine ⟨by rw [a1, hr], by rw [a1]; exact hdb, by rw [a1]; exact hnd, ?_⟩
            rw [a6]; rintro ⟨_, h2⟩; rw [hdk, hk] at h2; simp at h2
          simp only [State.pop, State.emit, State.setCoro]
          constructor
          · intro i; have := a1 i; simp only [life_snoc, lifeStep]; grind
          · intro i; have := a2 i; simp only [pend] at this; simp only [regs_snoc, woken_snoc, pend]; grind
          · intro i; have := a3 i; simp only [ResOK] at this; simp only [fins_snoc, gots_snoc, ResOK]; grind
          · intro i; have := a4 i; simp only [List.mem_append, this]; grind
          · intro i; have := a5 i; simp only [List.mem_append, this]; grind
          · intro i k; have := a6 i k; simp only [List.mem_append, this]; grind
          · exact a7.snoc hok
        · rename_i hk
          split
          · rename_i hin
            have hok : legal P s.log (.awaitReg a d) := by
              refine ⟨by rw [a1, hr], by rw [a1]; exact hdb, by rw [a1]; exact hnd, ?_⟩
              rw [a1, hin]; simp
            have hne : a ≠ d := by rintro rfl; simp [hr] at hin
            have hlz : Ev.spawned d .lazy ∈ s.log := by rw [a6]; exact ⟨hdl, by rw [hdk, hk]⟩
            simp only [State.pop, State.push, State.emit, State.setCoro]
            constructor
            · intro i; have := a1 i; simp only [life_snoc, lifeStep]; grind
            · intro i; have := a2 i; simp only [pend] at this; simp only [regs_snoc, woken_snoc, pend]; grind
            · intro i; have := a3 i; simp only [ResOK] at this; simp only [fins_snoc, gots_snoc, ResOK]; grind
            · intro i; have := a4 i; simp only [List.mem_append, this]; grind
            · intro i; have := a5 i; simp only [List.mem_append, this]; grind
            · intro i k; have := a6 i k; simp only [List.mem_append, this]; grind
            · refine (a7.snoc hok).snoc ⟨?_, Or.inr ⟨_, _, rfl, by simp [hlz]⟩⟩
              simp [lifeStep, hne, a1, hin]
          · exact LInv.same (s := s) ⟨a1,a2,a3,a4,a5,a6,a7⟩ rfl rfl rfl rfl
  · exact h.same rfl rfl rfl rfl

theorem LInv.finish {P : Prog σ V E} {s : State σ V E} {c r} (h : LInv P s) (hc : Core s) (hr : (s.coro c).status = .running) :
    LInv P (finish s c r) := by
  have hrd : (s.coro c).result = none := by
    have := hc.resD c
    cases hx : (s.coro c).result with
    | none => rfl
    | some r => rw [hx] at this; simp [hr] at this
  obtain ⟨a1,a2,a3,a4,a5,a6,a7⟩ := h
  have h3 := a3 c
  rw [hrd] at h3
  have hok : legal P s.log (.finished c r) := ⟨by rw [a1, hr], h3.1⟩
  simp only [Task.finish, State.pop, State.push, State.emit, State.setCoro]
  constructor
  · intro i; have := a1 i; simp only [life_snoc, lifeStep]; grind
  · intro i; have := a2 i; simp only [pend] at this; simp only [regs_snoc, woken_snoc, pend]; grind
  · intro i; have := a3 i; simp only [ResOK] at this h3; simp only [fins_snoc, gots_snoc, ResOK]
    by_cases hi : i = c
    · subst hi; simp [h3, readN]
    · simp [hi, Ne.symm hi]; exact this
  · intro i; have := a4 i; simp only [List.mem_append, this]; grind
  · intro i; have := a5 i; simp only [List.mem_append, this]; grind
  · intro i k; have := a6 i k; simp only [List.mem_append, this]; grind
  · exact a7.snoc hok

theorem doUser_L (P : Prog σ V E) {s : State σ V E} {who} (h : LInv P s) (hc : Core s) (hu : s.ub = none) (ha : Actor s who) (act) :
    LInv P (doUser P s who act) := by
  have hlt := ha.lt hc
  have hr := ha.runs hc
  have hfl : ∀ u, LInv P (s.fail u) := fun u => h.same rfl rfl rfl rfl
  cases act with
  | ret v =>
    cases who with
    | none => exact h
    | some c => exact h.finish hc (hr c rfl)
  | throw v =>
    cases who with
    | none => exact h
    | some c => exact h.finish hc (hr c rfl)
  | call k code v args =>
    simp only [doUser]
    have hm := moveArgs_L (P := P) args h
    have hmo := moveArgs_ok args s hc hu
    split
    · exact hm
    · rename_i hx
      have hcm : Core (moveArgs s args).1 := by
        exact hmo.1 (by simpa using hx)
      cases who with
      | none => exact hm.spawn hcm
      | some p =>
        have hp := hlt p rfl
        have he := (eff_moveArgs args s).nc
        refine LInv.spawn (hm.setEq ⟨rfl, rfl, rfl, rfl, rfl, rfl⟩) ?_
        exact hcm.setCoroEq (by omega) ⟨rfl, rfl, rfl, rfl, rfl, rfl, rfl, rfl, rfl⟩
  | await o =>
    cases who with
    | none => exact h
    | some c => exact awaitObj_L h hc ha
  | awaitExt now =>
    cases who with
    | none => cases now <;> exact h
    | some c =>
      cases now with
      | some r => exact (h.awaitNow (hr c rfl) r).reply (some c) (.res r)
      | none => exact h.suspend (hr c rfl) (Or.inr ⟨rfl, rfl⟩)
  | drop o =>
    simp only [doUser]
    split
    · exact (h.reply _ _).dropObj (hc.reply hlt _)
    · exact hfl _
  | moveNew src =>
    simp only [doUser]
    split
    · exact (h.reply _ _).moveObj _ _
    · exact hfl _
  | moveAssign dst src =>
    simp only [doUser]
    split
    · split
      · exact h.reply _ _
      · split
        · exact (h.reply who .unit).same rfl rfl rfl rfl
        · rename_i c hh
          refine LInv.deref ((h.reply who .unit).same rfl rfl rfl rfl) ?_
          have h1 : Core (s.reply who .unit) := hc.reply hlt _
          have := h1.takeHandle (o := dst) (c := c) hh ((s.reply who .unit).obj dst).alive
          exact this.congr rfl rfl rfl rfl rfl this.corB (fun _ => CEq.refl _)
    · exact hfl _
  | mkNull k =>
    simp only [doUser]
    refine LInv.reply ?_ _ _
    exact h.same rfl rfl rfl rfl
  | isReady o =>
    simp only [doUser]
    split
    · split
      · exact (h.reply who (.flag true)).emitSilent (by simp [silent]) (by simp [legal])
      · rename_i c hh
        split
        · exact hfl _
        · refine (h.reply who (.flag _)).emitSilent (by simp [silent]) ?_
          refine ⟨by simp, ?_⟩
          rintro c' hc'
          cases hc'
          rw [reply_log, h.life]; simp
    · exact hfl _
  | waitFor o b =>
    simp only [doUser]
    split
    · refine LInv.spawn ?_ ?_
      · refine LInv.same (s := s.emit (.waitCall s.nw s.nc (s.aim o))) ?_ rfl rfl rfl rfl
        exact h.emitSilent (by simp [silent]) (by simp [legal])
      · exact hc.congr rfl rfl rfl rfl rfl hc.corB (fun _ => CEq.refl _)
    · exact hfl _
  | thenL o cfg =>
    simp only [doUser]
    split
    · refine LInv.spawn (LInv.reply ?_ _ _) ?_
      · exact h.emitSilent (by simp [silent]) (by simp [legal])
      · exact (hc.emit _).reply hlt _
    · exact hfl _
  | thenR o cfg =>
    simp only [doUser]
    split
    · rename_i hx
      refine LInv.spawn (LInv.reply (LInv.moveObj ?_ _ _) _ _) ?_
      · exact h.emitSilent (by simp [silent]) (by simp [legal])
      · exact ((hc.emit _).moveObj (o := o) (usable_alive hx) _).reply (by simpa [Task.moveObj, State.emit, State.setObj] using hlt) _
    · exact hfl _
  | connect o q code =>
    simp only [doUser]
    split
    · refine LInv.spawn ?_ ?_
      · refine LInv.same (s := (s.emit (.thenMade s.nc (s.obj o).handle ⟨false, some q, false, false⟩)).reply who .unit) ?_ rfl rfl rfl rfl
        refine LInv.reply ?_ _ _
        exact h.emitSilent (by simp [silent]) (by simp [legal])
      · have := (hc.emit (.thenMade s.nc (s.obj o).handle ⟨false, some q, false, false⟩)).reply hlt .unit
        exact this.congr rfl rfl rfl rfl rfl this.corB (fun _ => CEq.refl _)
    · exact hfl _
  | delCtx q =>
    have hh := h.reply who .unit
    obtain ⟨a1,a2,a3,a4,a5,a6,a7⟩ := hh
    have e1 : ∀ i, (({ s with qalive := fun i => if i = q then false else s.qalive i } : State σ V E).reply who .unit).coro i = (s.reply who .unit).coro i := by
      intro i; cases who <;> rfl
    simp only [doUser, State.emit]
    constructor <;> simp only [reply_log, reply_qalive, reply_nc, e1] at *
    · intro i; simp only [life_snoc, lifeStep]; exact a1 i
    · intro i; simp only [regs_snoc, woken_snoc, List.append_nil]; exact a2 i
    · intro i; have := a3 i; simp only [ResOK] at this; simp only [fins_snoc, gots_snoc, ResOK, List.append_nil]; exact this
    · intro i; have := a4 i; simp only [List.mem_append, this]; grind
    · intro i; have := a5 i; simp only [List.mem_append, this]; grind
    · intro i k; have := a6 i k; simp only [List.mem_append, this]; grind
    · exact a7.snoc (by simp [legal])
  | note n =>
    refine (h.reply who .unit).emitSilent (by simp [silent]) ?_
    cases who with
    | none => trivial
    | some c => simp [legal]; rw [h.life]; exact hr c rfl

theorem doAct_L (P : Prog σ V E) {s : State σ V E} {c} (h : LInv P s) (hc : Core s) (hu : s.ub = none) (ha : Actor s (some c)) (act) :
    LInv P (doAct P s c act) := by
  have hlt := ha.lt hc
  have hr := ha.runs hc c rfl
  have hrun : Task.life c s.log = .running := by rw [h.life]; exact hr
  cases act with
  | u a => exact doUser_L P h hc hu ha a
  | markCb v => exact (h.reply (some c) .unit).emitSilent (by simp [silent]) (by simpa [legal] using hrun)
  | markErr v => exact (h.reply (some c) .unit).emitSilent (by simp [silent]) (by simpa [legal] using hrun)
  | ctxAlive q v =>
    simp only [doAct]
    split
    · exact (h.reply (some c) (.flag _)).emitSilent (by simp [silent]) (by simpa [legal] using hrun)
    · exact (h.reply (some c) (.flag _)).emitSilent (by simp [silent]) (by simpa [legal] using hrun)
  | waitDone w r =>
    simp only [doAct]
    split
    · refine LInv.reply ?_ _ _
      exact h.same rfl rfl rfl rfl
    · exact h.same rfl rfl rfl rfl
  | callTmp k code v =>
    have h1 : LInv P (s.setCoro c { s.coro c with inp := .obj s.no }) := h.setEq ⟨rfl, rfl, rfl, rfl, rfl, rfl⟩
    refine LInv.spawn (LInv.emitSilent h1 (e := .cbTask c s.nc) trivial ?_) ?_
    · refine ⟨?_, ?_⟩
      · have := h1.life c; rw [this]; simp [State.setCoro, hr]
      · have := h.life s.nc; rw [hc.corB s.nc (Nat.le_refl _)] at this; exact this
    · refine CoreD.emit (s := s.setCoro c _) ?_ _
      exact hc.setCoroEq (hlt c rfl) ⟨rfl, rfl, rfl, rfl, rfl, rfl, rfl, rfl, rfl⟩
  | awaitTmp o => exact awaitObj_L h hc ha
  | dropTmp o =>
    simp only [doAct]
    split
    · exact (h.reply _ _).dropObj (hc.reply hlt _)
    · exact h.same rfl rfl rfl rfl
  | stuck => exact h.same rfl rfl rfl rfl

theorem waitReturn_L (P : Prog σ V E) {s : State σ V E} (h : LInv P s) (w) : LInv P (waitReturn P s w) := by
  have key : ∀ i r, LInv P ((((s.setW w { s.wctx w with alive := false }).pop).reply (s.wctx w).caller i).emit (.waitRet w r)) := by
    intro i r
    refine LInv.emitSilent (e := .waitRet w r) (LInv.reply ?_ _ _) trivial trivial
    exact h.same rfl rfl rfl rfl
  unfold waitReturn
  dsimp only
  split
  · exact key _ _
  · split
    · exact key _ _
    · exact h.same rfl rfl rfl rfl

/-- A suspended coroutine continues with a result. -/
theorem run_L (P : Prog σ V E) {s : State σ V E} (hI : Inv s) (hu : s.ub = none) (h : LInv P s) : LInv P (run P s) := by
  have hc := hI.i2.i1.core
  unfold run
  split
  · exact h
  · rename_i c st hst
    have hlt := hc.bodyLt (c := c) (by simp [hst])
    split
    · exact h.same rfl rfl rfl rfl
    split
    · exact h.same rfl rfl rfl rfl
    · rename_i code hcode
      refine doAct_L P (LInv.setEq h ?_) ?_ hu ⟨st, hst⟩ _
      · exact ⟨rfl, rfl, rfl, rfl, rfl, rfl⟩
      exact hc.setCoroEq hlt ⟨rfl, rfl, rfl, rfl, rfl, rfl, rfl, rfl, by simp [hcode]⟩
  · rename_i c st hst
    have hcc := (hc.finR c).1 (by simp [hst])
    have hlt := hc.statusLt (c := c) (by simp [hcc])
    have hfr : (s.coro c).freed = false := by
      cases hf : (s.coro c).freed with
      | false => rfl
      | true => have := hc.frS c hf; simp [hcc.2] at this
    split
    · exact h.same rfl rfl rfl rfl
    split
    · rename_i a rest hfin
      have ha : (s.coro a).status = .waitTask c := by
        rw [← hc.pendR c a]; simp [pend, hcc, hfin]
      have hne : a ≠ c := by rintro rfl; simp [hcc] at ha
      have hnd := hc.pendN c
      dsimp only
      have hfa := hc.notFreed (hc.statusLt (c := a) (by simp [ha])) (by simp [ha])
      simp only [State.setCoro, hne, if_false, if_true, hfa, ha]
      cases hres : (s.coro c).result with
      | none => have := (hc.resD c).2 hcc.1; simp [hres] at this
      | some r =>
        obtain ⟨a1,a2,a3,a4,a5,a6,a7⟩ := h
        have hrs := a3 c
        rw [hres] at hrs
        have hrg := a2 c
        simp only [pend, hcc.1, if_true, hfin] at hrg
        have hok : legal P s.log (.gotWoken a c r) := by
          refine ⟨by rw [a1, ha], by rw [a1, hcc.1], by rw [a4, hfr]; simp, ⟨rest, hrg⟩, hrs⟩
        simp only [Bool.false_eq_true, if_false, State.emit, State.push]
        have had : (s.coro a).status ≠ .done := by simp [ha]
        constructor
        · intro i; have := a1 i; simp only [life_snoc, lifeStep]; grind
        · intro i; have := a2 i; simp only [pend] at this; simp only [regs_snoc, woken_snoc, pend]
          by_cases hia : i = a
          · subst hia; simp [Ne.symm hne]; rw [this]; simp [had]
          · by_cases hic : i = c
            · subst hic; simp [hia, hrg, hcc.1]
            · simp [hia, hic, Ne.symm hic]; exact this
        · intro i; have := a3 i; simp only [ResOK] at this hrs
          simp only [fins_snoc, gots_snoc, ResOK]
          by_cases hia : i = a
          · subst hia; simp [Ne.symm hne]; exact this
          · by_cases hid : i = c
            · subst hid
              obtain ⟨r0, e1, e2⟩ := hrs
              simp [hia]
              exact ⟨r0, e1, by rw [e2]; rfl⟩
            · simp [hia, hid, Ne.symm hid]; exact this
        · intro i; have := a4 i; simp only [List.mem_append, this]; grind
        · intro i; have := a5 i; simp only [List.mem_append, this]; grind
        · intro i k; have := a6 i k; simp only [List.mem_append, this]; grind
        · exact a7.snoc hok
    · rename_i hfin
      refine LInv.deref ?_ (hc.finalEnd hst hfin)
      refine LInv.same (s := s.setCoro c { s.coro c with selfRef := false }) ?_ rfl rfl rfl rfl
      exact h.setEq ⟨rfl, rfl, rfl, rfl, rfl, rfl⟩
  · rename_i os st hst
    split
    · exact h.same rfl rfl rfl rfl
    · rename_i o os
      dsimp only
      split
      · refine LInv.dropObj (h.same rfl rfl rfl rfl) ?_
        exact hc.congr rfl rfl rfl (by simp [State.pop, State.push, hst]) (by simp [State.pop, State.push, hst]) hc.corB
          (fun _ => CEq.refl _)
      · exact h.same rfl rfl rfl rfl
  · dsimp only
    split <;> exact h.same rfl rfl rfl rfl
  · rename_i w tmp st hst
    dsimp only
    split
    · refine LInv.dropObj (h.same rfl rfl rfl rfl) ?_
      exact hc.congr rfl rfl rfl (by simp [State.pop, State.push, hst]) (by simp [State.pop, State.push, hst]) hc.corB
        (fun _ => CEq.refl _)
    · exact h.same rfl rfl rfl rfl
  · rename_i w st hst
    split
    · exact waitReturn_L P h w
    · refine LInv.emitSilent (e := .loopEnter w) ?_ trivial trivial
      exact h.same rfl rfl rfl rfl
  · split
    · exact waitReturn_L P h _
    · exact h

theorem step_L (P : Prog σ V E) {s : State σ V E} (op) (hI : Inv s) (hu : s.ub = none) (h : LInv P s) : LInv P (step P s op) := by
  have hc := hI.i2.i1.core
  unfold step
  rw [if_neg (by simp [hu])]
  cases op with
  | run => exact run_L P hI hu h
  | main a =>
    dsimp only
    split
    · exact doUser_L P h hc hu (who := none) trivial a
    · exact h
  | fire c r =>
    dsimp only
    split
    · rename_i hx
      simp only [Bool.and_eq_true, decide_eq_true_eq] at hx
      obtain ⟨a1,a2,a3,a4,a5,a6,a7⟩ := h
      have hok : legal P s.log (.extRes c r) := by simp [legal, a1, hx.2]
      simp only [State.emit, State.push, State.setCoro]
      constructor
      · intro i; have := a1 i; simp only [life_snoc, lifeStep]; grind
      · intro i; have := a2 i; simp only [pend] at this; simp only [regs_snoc, woken_snoc, pend]; grind
      · intro i; have := a3 i; simp only [ResOK] at this; simp only [fins_snoc, gots_snoc, ResOK]; grind
      · intro i; have := a4 i; simp only [List.mem_append, this]; grind
      · intro i; have := a5 i; simp only [List.mem_append, this]; grind
      · intro i k; have := a6 i k; simp only [List.mem_append, this]; grind
      · exact a7.snoc hok
    · exact h
  | exitLoop w =>
    dsimp only
    split
    · refine LInv.emitSilent (e := .extExit w) ?_ trivial trivial
      exact h.same rfl rfl rfl rfl
    · exact h

/-- The trace of every execution is legal and agrees with the state. -/
theorem exec_linv (P : Prog σ V E) (ops) : LInv P (exec P ops) :=
  (exec_induction (I := LInv P) (linv_init P) (fun _ op hI hu h => step_L P op hI hu h) ops).1

theorem exec_inv (P : Prog σ V E) (ops) (hu : (exec P ops).ub = none) : Inv (exec P ops) :=
  (exec_induction (P := P) (I := fun _ => True) trivial (fun _ _ _ _ _ => trivial) ops).2.1 hu

end QCoro.Task
