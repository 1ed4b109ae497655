import Verif.Task.CoreStep

/-! Library coroutines (`runCoroutine`, `thenImpl`) always receive the kind of answer they wait for. -/
namespace QCoro.Task
variable {σ V E : Type}

def isRes (i : Resp V E) : Prop := ∃ r, i = .res r

/-- Which answers a coroutine at this program point can process. -/
def compat : Code σ V E → Resp V E → Prop
  | .user _, _ => True
  | .waitRun _ _ .init, _ => True
  | .waitRun _ _ .waiting, i => isRes i
  | .waitRun _ _ .signalled, _ => True
  | .waitRun _ _ .over, _ => False
  | .thenC _ _ .init, _ => True
  | .thenC _ _ .waiting, i => isRes i
  | .thenC _ _ (.guard _), i => ∃ b, i = .flag b
  | .thenC _ _ (.cbStart _), _ => True
  | .thenC _ _ (.cbRun _), _ => True
  | .thenC _ _ .cbCalled, i => ∃ o, i = .obj o
  | .thenC _ _ (.cbAwait _), i => isRes i
  | .thenC _ _ (.cbDrop _), _ => True
  | .thenC _ _ (.errStart _ _), _ => True
  | .thenC _ _ (.errRun _), _ => True
  | .thenC _ _ .over, _ => False

/-- Code that runs user statements inline. -/
def userish : Code σ V E → Prop
  | .user _ => True
  | .thenC _ _ (.cbRun _) => True
  | .thenC _ _ (.errRun _) => True
  | _ => False

theorem userish.compat {c : Code σ V E} (h : userish c) (i) : compat c i := by
  unfold userish at h; split at h <;> simp_all [Task.compat]

/-- Answers an action can produce. -/
def replyU : UAct σ V E → Resp V E → Prop
  | .ret _, _ => False
  | .throw _, _ => False
  | .await _, i => isRes i
  | .awaitExt _, i => isRes i
  | .waitFor _ _, i => isRes i
  | _, _ => True
def replyA : Act σ V E → Resp V E → Prop
  | .u a, i => replyU a i
  | .ctxAlive _ _, i => ∃ b, i = .flag b
  | .callTmp _ _ _, i => ∃ o, i = .obj o
  | .awaitTmp _, i => isRes i
  | _, _ => True

theorem codeNext_spec (P : Prog σ V E) (ow) (code : Code σ V E) (i) (h : compat code i) :
    (codeNext P ow code i).2 ≠ .stuck ∧
    (∀ j, replyA (codeNext P ow code i).2 j → compat (codeNext P ow code i).1 j) ∧
    (∀ o b, (codeNext P ow code i).2 = .u (.waitFor o b) → userish (codeNext P ow code i).1) := by
  cases code with
  | user s => simp [codeNext, compat, userish]
  | waitRun w o ph =>
    cases ph <;> simp [compat] at h
    · cases o <;> simp [codeNext, waitNext, waitAct, compat, replyA, replyU]
    · obtain ⟨r, rfl⟩ := h; simp [codeNext, waitNext, compat]
    · simp [codeNext, waitNext, compat, replyA, replyU]
  | thenC o cfg ph =>
    cases ph <;> simp [compat] at h
    · simp only [codeNext, thenNext]; split <;> simp [compat, replyA, replyU]
    · obtain ⟨r, rfl⟩ := h
      cases r with
      | val v => simp only [codeNext, thenNext]; cases cfg.guard <;> simp [compat, replyA]
      | exc e =>
        simp only [codeNext, thenNext]
        split
        · cases cfg.err <;> simp [compat, replyA, replyU]
        · simp [compat, replyA, replyU]
    · rcases h with rfl | rfl <;> simp [codeNext, thenNext, compat, replyA, replyU, userish]
    · simp only [codeNext, thenNext]
      cases cfg.cbTask <;> simp [compat, replyA, userish]
    · simp [codeNext, thenNext, compat, userish]
    · obtain ⟨r, rfl⟩ := h; simp [codeNext, thenNext, compat, replyA]
    · obtain ⟨r, rfl⟩ := h; simp [codeNext, thenNext, compat]
    · rename_i r; cases r <;> simp [codeNext, thenNext, compat, replyA, replyU]
    · simp [codeNext, thenNext, compat, userish]
    · simp [codeNext, thenNext, compat, userish]

/-- Status, code and pending answer of one coroutine fit together. -/
def PC (x : Coro σ V E) : Prop :=
  ∀ code, x.code = some code →
    (x.status = .running ∨ x.status = .initial → compat code x.inp) ∧
    ((∃ d, x.status = .waitTask d) ∨ x.status = .waitExt → ∀ r, compat code (.res r))

def PInv (s : State σ V E) : Prop := ∀ c, PC (s.coro c)

/-- The acting coroutine can process whatever its action answers. -/
def PA (s : State σ V E) (who : Option Nat) (R : Resp V E → Prop) : Prop :=
  ∀ c, who = some c → ∀ code, (s.coro c).code = some code → ∀ i, R i → compat code i

/-- Everybody but the actor is fine. -/
def PEx (s : State σ V E) (who : Option Nat) : Prop := ∀ c, who ≠ some c → PC (s.coro c)

/-- Same status, code and pending answer. -/
def Sci (x y : Coro σ V E) : Prop := x.status = y.status ∧ x.code = y.code ∧ x.inp = y.inp

theorem Sci.pc {x y : Coro σ V E} (h : Sci x y) (hy : PC y) : PC x := by
  intro code; rw [h.1, h.2.1, h.2.2]; exact hy code

theorem deref_sci (s : State σ V E) (c i) : Sci ((deref s c).coro i) (s.coro i) := by
  unfold deref
  split
  · exact ⟨rfl, rfl, rfl⟩
  split
  · exact ⟨rfl, rfl, rfl⟩
  · split
    · exact ⟨rfl, rfl, rfl⟩
    · simp only [State.push, State.emit, State.setCoro]; split <;> simp_all [Sci]
  · simp only [State.setCoro]; split <;> simp_all [Sci]

theorem dropObj_sci (s : State σ V E) (o i) : Sci ((dropObj s o).coro i) (s.coro i) := by
  unfold dropObj
  split
  · exact ⟨rfl, rfl, rfl⟩
  · exact deref_sci _ _ _

def Runs (s : State σ V E) (who : Option Nat) : Prop := ∀ c, who = some c → (s.coro c).status = .running

theorem Actor.runs {s : State σ V E} {who d} (h : Actor s who) (hc : CoreD s d) : Runs s who := by
  rintro c rfl
  obtain ⟨st, hs⟩ := h
  exact (hc.bodyR c).1 (by simp [hs])

theorem PEx.reply {s : State σ V E} {who} (h : PEx s who) {R} (ha : PA s who R) (hr : Runs s who) {i} (hi : R i) :
    PInv (s.reply who i) := by
  intro c
  cases who with
  | none => exact h c (by simp)
  | some a =>
    simp only [State.reply, State.setCoro]
    split
    · rename_i hca; subst hca
      intro code hcode
      have := hr c rfl
      exact ⟨fun _ => ha c rfl code hcode i hi, by simp [this]⟩
    · exact h c (by simpa using Ne.symm ‹_›)

theorem PEx.reply' {s s' : State σ V E} {who} (h : PEx s who) {R} (ha : PA s who R) (hr : Runs s who) {i} (hi : R i)
    (hco : s'.coro = s.coro) : PInv (s'.reply who i) := by
  refine PEx.reply (s := s') (R := R) ?_ ?_ ?_ hi
  · intro c; rw [hco]; exact h c
  · intro c hc; rw [hco]; exact ha c hc
  · intro c hc; rw [hco]; exact hr c hc

theorem PInv.sci {s s' : State σ V E} (h : PInv s) (hs : ∀ i, Sci (s'.coro i) (s.coro i)) : PInv s' :=
  fun i => (hs i).pc (h i)

theorem PInv.spawn {P : Prog σ V E} {s : State σ V E} (h : PInv s) {k code ps v own}
    (hc : ∀ i, compat code i) : PInv (spawn P s k code ps v own) := by
  intro i
  unfold Task.spawn
  cases k
  all_goals
    simp only [State.push, State.emit, State.setObj, State.setCoro]
    split
    · intro code' hc'; simp at hc'; subst hc'; exact ⟨fun _ => hc _, by simp⟩
    · exact h i

theorem moveArgs_coro (as : List Nat) : ∀ s : State σ V E, (moveArgs s as).1.coro = s.coro := by
  induction as with
  | nil => intro s; rfl
  | cons a as ih =>
    intro s; simp only [moveArgs]; split
    · rw [ih]; rfl
    · rfl

theorem awaitObj_P {P : Prog σ V E} {s : State σ V E} {a o : Nat} {priv} (h : PEx s (some a))
    (ha : PA s (some a) isRes) (hr : Runs s (some a)) (hn : (awaitObj P s a o priv).ub = none) :
    PInv (awaitObj P s a o priv) := by
  have hres : ∀ code, (s.coro a).code = some code → ∀ r, compat code (.res r) :=
    fun code hc r => ha a rfl code hc _ ⟨r, rfl⟩
  have hrun := hr a rfl
  have hex : ∀ c, c ≠ a → PC (s.coro c) := fun c hc => h c (by simpa using Ne.symm hc)
  unfold PC at hex
  revert hn
  unfold awaitObj PInv PC
  simp only [State.fail, State.push, State.pop, State.emit, State.setCoro, State.reply]
  intro hn c code hcode
  grind

theorem finish_P {s : State σ V E} {c r} (h : PEx s (some c)) : PInv (finish s c r) := by
  intro i
  simp only [finish, State.push, State.pop, State.emit, State.setCoro]
  split
  · intro code hc; simp
  · exact h i (by simpa using Ne.symm ‹_›)

theorem doUser_P (P : Prog σ V E) {s : State σ V E} {who} (act : UAct σ V E) (h : PEx s who)
    (ha : PA s who (replyU act)) (hr : Runs s who)
    (hw : ∀ o b, act = .waitFor o b → ∀ c, who = some c → ∀ code, (s.coro c).code = some code → userish code)
    (hn : (doUser P s who act).ub = none) : PInv (doUser P s who act) := by
  have hnone : who = none → PInv s := by rintro rfl; exact fun c => h c (by simp)
  cases act with
  | ret v =>
    cases who with
    | none => exact hnone rfl
    | some c => exact finish_P h
  | throw v =>
    cases who with
    | none => exact hnone rfl
    | some c => exact finish_P h
  | call k code v args =>
    simp only [doUser] at hn ⊢
    split
    · rename_i hs; rw [if_pos hs] at hn; simp [hn] at hs
    · refine PInv.spawn ?_ (fun _ => trivial)
      have hm := moveArgs_coro args s
      cases who with
      | none => intro c; simp only [hm]; exact h c (by simp)
      | some p =>
        intro c
        simp only [State.setCoro, hm]
        split
        · rename_i hcp; subst hcp
          intro code hcode
          have := hr c rfl
          exact ⟨fun _ => ha c rfl code hcode _ trivial, by simp [this]⟩
        · exact h c (by simpa using Ne.symm ‹_›)
  | await o =>
    cases who with
    | none => exact hnone rfl
    | some c => exact awaitObj_P h ha hr hn
  | awaitExt now =>
    cases who with
    | none => cases now <;> exact hnone rfl
    | some c =>
      cases now with
      | some r => exact (h.reply ha hr (i := .res r) ⟨r, rfl⟩)
      | none =>
      intro i
      simp only [doUser, State.pop, State.emit, State.setCoro]
      split
      · rename_i hi; subst hi
        intro code hcode
        exact ⟨by simp, fun _ r => ha i rfl code hcode _ ⟨r, rfl⟩⟩
      · exact h i (by simpa using Ne.symm ‹_›)
  | drop o =>
    simp only [doUser] at hn ⊢
    split
    · exact (h.reply ha hr (i := .unit) trivial).sci (dropObj_sci _ _)
    · simp_all [State.fail]
  | moveNew o =>
    simp only [doUser] at hn ⊢
    split
    · exact (h.reply ha hr (i := .obj s.no) trivial)
    · simp_all [State.fail]
  | moveAssign dst src =>
    have hrep := h.reply ha hr (i := .unit) trivial
    simp only [doUser] at hn ⊢
    split
    · split
      · exact hrep
      · split
        · exact hrep
        · exact hrep.sci (deref_sci _ _)
    · rename_i hx; rw [if_neg hx] at hn; simp [State.fail] at hn
  | mkNull k => exact h.reply' ha hr (i := .obj s.no) trivial rfl
  | isReady o =>
    have h1 := fun b => h.reply ha hr (i := .flag b) trivial
    simp only [doUser] at hn ⊢
    split
    · rename_i hx; rw [if_pos hx] at hn
      split
      · exact h1 _
      · split
        · simp_all [State.fail]
        · exact h1 _
    · simp_all [State.fail]
  | waitFor o b =>
    have h0 : PInv s := by
      intro c
      by_cases hc : who = some c
      · intro code hcode
        have := (hw o b rfl c hc code hcode).compat
        exact ⟨fun _ => this _, fun _ _ => this _⟩
      · exact h c hc
    simp only [doUser] at hn ⊢
    split
    · refine PInv.spawn ?_ ?_
      · exact h0
      · exact fun _ => trivial
    · simp_all [State.fail]
  | thenL o cfg =>
    simp only [doUser] at hn ⊢
    split
    · refine PInv.spawn ?_ ?_
      · exact h.reply' ha hr trivial rfl
      · exact fun _ => trivial
    · simp_all [State.fail]
  | thenR o cfg =>
    simp only [doUser] at hn ⊢
    split
    · refine PInv.spawn ?_ (fun _ => trivial)
      exact h.reply' ha hr trivial rfl
    · simp_all [State.fail]
  | connect o q code =>
    simp only [doUser] at hn ⊢
    split
    · refine PInv.spawn (s := State.push _ _) ?_ (fun _ => trivial)
      exact h.reply' (s' := s.emit (.thenMade s.nc (s.obj o).handle ⟨false, some q, false, false⟩)) ha hr (i := .unit) trivial rfl
    · rename_i hx; rw [if_neg hx] at hn; simp [State.fail] at hn
  | delCtx q => exact h.reply' (s' := { s with qalive := fun i => if i = q then false else s.qalive i }) ha hr (i := .unit) trivial rfl
  | note q => exact h.reply ha hr (i := .unit) trivial

theorem doAct_P (P : Prog σ V E) {s : State σ V E} {c} (act : Act σ V E) (h : PEx s (some c))
    (ha : PA s (some c) (replyA act)) (hr : Runs s (some c))
    (hw : ∀ o b, act = .u (.waitFor o b) → ∀ code, (s.coro c).code = some code → userish code)
    (hn : (doAct P s c act).ub = none) : PInv (doAct P s c act) := by
  cases act with
  | u a =>
    refine doUser_P P a h ha hr ?_ hn
    rintro o b rfl c' hc'; simp at hc'; subst hc'; exact hw o b rfl
  | markCb v => exact h.reply ha hr (i := .unit) trivial
  | markErr v => exact h.reply ha hr (i := .unit) trivial
  | ctxAlive q v =>
    have h1 := fun b => h.reply ha hr (i := .flag b) ⟨b, rfl⟩
    simp only [doAct]; split <;> exact h1 _
  | waitDone w r =>
    simp only [doAct] at hn ⊢
    split
    · exact h.reply' (s' := s.setW w { s.wctx w with fin := some r, exit := true }) ha hr (i := .unit) trivial rfl
    · simp_all [State.fail]
  | callTmp k code v =>
    simp only [doAct]
    refine PInv.spawn ?_ (fun _ => trivial)
    intro i
    simp only [State.setCoro, State.emit]
    split
    · rename_i hi; subst hi
      intro code hcode
      have := hr i rfl
      exact ⟨fun _ => ha i rfl code hcode _ ⟨_, rfl⟩, by simp [this]⟩
    · exact h i (by simpa using Ne.symm ‹_›)
  | awaitTmp o => exact awaitObj_P h ha hr hn
  | dropTmp o =>
    simp only [doAct] at hn ⊢
    split
    · exact (h.reply ha hr (i := .unit) trivial).sci (dropObj_sci _ _)
    · simp_all [State.fail]
  | stuck => simp [doAct, State.fail] at hn

/-! ### Wait frames -/

def wOf : Frame → Option Nat
  | .waitA w _ => some w
  | .waitB w => some w
  | .loop w => some w
  | _ => none

def waits (st : List Frame) : List Nat := st.filterMap wOf

/-- A waitFor activation called by coroutine `c` sits directly above `c`'s activation, and `c` executes user
statements. -/
def frameOK (s : State σ V E) (f : Frame) (rest : List Frame) : Prop :=
  ∀ w, wOf f = some w → w < s.nw ∧ (s.wctx w).alive = true ∧ ∀ c, (s.wctx w).caller = some c →
    (∃ r, rest = .body c :: r) ∧ ∀ code, (s.coro c).code = some code → userish code

def SWF (s : State σ V E) : List Frame → Prop
  | [] => True
  | f :: rest => frameOK s f rest ∧ SWF s rest

structure WInv (s : State σ V E) : Prop where
  /-- later calls sit above earlier ones -/
  sorted : (waits s.stack).Pairwise (· > ·)
  fresh : ∀ w, s.nw ≤ w → s.wctx w = {}
  live : ∀ w, (s.wctx w).alive = true → w ∈ waits s.stack
  swf : SWF s s.stack
  callerLt : CallerLt s

/-- Wait contexts look the same and the coroutines inside `st` have the same code. -/
theorem SWF.mono {s s' : State σ V E} {st : List Frame} (h : SWF s st) (hnw : s.nw ≤ s'.nw)
    (hw : ∀ w, w ∈ waits st → w < s.nw → (s'.wctx w).alive = (s.wctx w).alive ∧ (s'.wctx w).caller = (s.wctx w).caller)
    (hc : ∀ c, c ∈ bodies st → (s'.coro c).code = (s.coro c).code) : SWF s' st := by
  induction st with
  | nil => trivial
  | cons f rest ih =>
    obtain ⟨h1, h2⟩ := h
    refine ⟨?_, ih h2 (fun w hw' => hw w ?_) (fun c hc' => hc c ?_)⟩
    · intro w hwf
      obtain ⟨a1, a2, a3⟩ := h1 w hwf
      have := hw w (by simp [waits, hwf]) a1
      refine ⟨by omega, by rw [this.1]; exact a2, ?_⟩
      intro c hcl
      rw [this.2] at hcl
      obtain ⟨⟨r, hr⟩, b2⟩ := a3 c hcl
      refine ⟨⟨r, hr⟩, ?_⟩
      rw [hc c (by rw [hr]; cases f <;> simp [bodies])]
      exact b2
    · revert hw'; simp only [waits, List.filterMap_cons]; split <;> simp_all
    · revert hc'; simp only [bodies, List.filterMap_cons]; split <;> simp_all

end QCoro.Task
