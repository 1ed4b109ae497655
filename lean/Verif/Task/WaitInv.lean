import Verif.Task.ThenExact

/-! What a step means for one call of `waitFor` (number `w`). -/
namespace QCoro.Task
variable {σ V E : Type}

/-- No activation of call `w` sits above `p`. -/
def Bel (w : Nat) (p : Frame) : List Frame → Prop
  | [] => True
  | f :: st => (wOf f = some w → p ∉ st) ∧ Bel w p st

/-- Frames that do not belong to call `w`. -/
def NoW (w : Nat) (fs : List Frame) : Prop := ∀ f ∈ fs, wOf f ≠ some w

theorem NW.noW {w fs} (h : NW fs) : NoW w fs := fun f hf => by rw [h f hf]; simp

theorem Bel.app {w p fs st} (h : Bel w p st) (hn : NoW w fs) : Bel w p (fs ++ st) := by
  induction fs with
  | nil => exact h
  | cons f fs ih => exact ⟨fun hf => absurd hf (hn f (by simp)), ih fun g hg => hn g (by simp [hg])⟩
theorem Bel.tail {w p f st} (h : Bel w p (f :: st)) : Bel w p st := h.2
theorem Bel.top {w p f st} (h : Bel w p (f :: st)) (hf : wOf f = some w) : p ∉ st := h.1 hf

/-- Stack effect of a step that is not an end of call `w`. -/
def StkTo (w : Nat) (s s' : State σ V E) : Prop :=
  ∃ fs, NoW w fs ∧ (s'.stack = fs ++ s.stack ∨ s'.stack = fs ++ s.stack.tail ∨
    ∃ f f' st, s.stack = f :: st ∧ wOf f' = wOf f ∧ s'.stack = fs ++ f' :: st)

theorem Bel.to {w p} {s s' : State σ V E} (h : Bel w p s.stack) (hs : StkTo w s s') : Bel w p s'.stack := by
  obtain ⟨fs, hn, h1 | h1 | ⟨f, f', st, h1, h2, h3⟩⟩ := hs
  · rw [h1]; exact h.app hn
  · rw [h1]; refine Bel.app ?_ hn
    cases hx : s.stack with
    | nil => trivial
    | cons f st => rw [hx] at h; exact h.2
  · rw [h3]; rw [h1] at h
    exact Bel.app ⟨fun hf => h.1 (by rw [← h2]; exact hf), h.2⟩ hn

/-- Runners of call `w` are not created by the step. -/
def WC (w : Nat) (s s' : State σ V E) : Prop :=
  ∀ c o ph, (s'.coro c).code = some (.waitRun w o ph) → ∃ o' ph', (s.coro c).code = some (.waitRun w o' ph')

theorem WC.refl (w) (s : State σ V E) : WC w s s := fun _ o ph h => ⟨o, ph, h⟩
theorem WC.trans {w} {a b c : State σ V E} (h : WC w a b) (k : WC w b c) : WC w a c := fun i o ph hc => by
  obtain ⟨o', ph', h1⟩ := k i o ph hc; exact h i o' ph' h1
theorem WC.of_code {w} {s s' : State σ V E} (h : ∀ c, (s'.coro c).code = (s.coro c).code) : WC w s s' := fun c o ph hc => ⟨o, ph, by rw [← h c]; exact hc⟩

theorem code_setCoro {s : State σ V E} {c} {x : Coro σ V E} (h : x.code = (s.coro c).code) (i) : ((s.setCoro c x).coro i).code = (s.coro i).code := by
  simp only [State.setCoro]; split
  · rename_i hx; subst hx; exact h
  · rfl
theorem code_reply (s : State σ V E) (who i c) : ((s.reply who i).coro c).code = (s.coro c).code := by
  cases who with
  | none => rfl
  | some p => exact code_setCoro (s := s) (c := p) (x := { s.coro p with inp := i }) rfl c
theorem code_deref (s : State σ V E) (c i) : ((deref s c).coro i).code = (s.coro i).code := (deref_sci s c i).2.1
theorem code_dropObj (s : State σ V E) (o i) : ((dropObj s o).coro i).code = (s.coro i).code := (dropObj_sci s o i).2.1
theorem code_moveArgs (as : List Nat) : ∀ (s : State σ V E) i, ((moveArgs s as).1.coro i).code = (s.coro i).code := by
  induction as with
  | nil => intro s i; rfl
  | cons a as ih =>
    intro s i; simp only [moveArgs]; split
    · rw [ih]; rfl
    · rfl
theorem code_awaitObj (P : Prog σ V E) (s : State σ V E) (a o priv i) : ((awaitObj P s a o priv).coro i).code = (s.coro i).code := by
  rcases awaitObj_cases P s a o priv with ⟨u, h⟩ | ⟨_, _, _, h⟩ | ⟨d, _, hd, _, ⟨r, _, _, h⟩ | ⟨_, _, h⟩ | ⟨hi, _, h⟩⟩ <;> rw [h]
  · rfl
  · exact code_setCoro (s := s) (c := a) (x := { s.coro a with status := .waitNull }) rfl i
  · simp only [readyState, State.emit, State.reply, State.setCoro]; grind
  · simp only [regState, State.pop, State.emit, State.setCoro]; grind
  · simp only [lazyState, State.pop, State.push, State.emit, State.setCoro]; grind

def isW (w : Nat) : Code σ V E → Bool
  | .waitRun w' _ _ => w' == w
  | _ => false

theorem WC.spawn (P : Prog σ V E) {w} {s0 s : State σ V E} (k code ps v own) (hc : isW w code = false) (h : WC w s0 s) : WC w s0 (spawn P s k code ps v own) := by
  refine h.trans ?_
  intro c o ph hcode
  by_cases hx : c = s.nc
  · subst hx
    rw [(spawn_new P s k code ps v own).1] at hcode
    simp at hcode; subst hcode; simp [isW] at hc
  · refine ⟨o, ph, ?_⟩
    have : ((Task.spawn P s k code ps v own).coro c) = s.coro c := by
      unfold Task.spawn; cases k <;> simp [State.push, State.emit, State.setCoro, State.setObj, hx]
    rw [← this]; exact hcode

theorem WC.finish {w} {s0 s : State σ V E} (c r) (h : WC w s0 s) : WC w s0 (finish s c r) := h.trans (WC.of_code (code_setCoro rfl))

theorem wc_doUser (P : Prog σ V E) {w} {s : State σ V E} (who act) (hw : w < s.nw ∨ (doUser P s who act).nw ≤ w) : WC w s (doUser P s who act) := by
  have h0 := WC.refl w s
  have hr : ∀ i, WC w s (s.reply who i) := fun i => WC.of_code (code_reply s who i)
  cases act with
  | ret v => cases who with
    | none => exact h0
    | some c => exact h0.finish c _
  | throw v => cases who with
    | none => exact h0
    | some c => exact h0.finish c _
  | call k code v args =>
    simp only [doUser]
    split
    · exact WC.of_code (code_moveArgs args s)
    · refine WC.spawn P k _ _ _ _ rfl ?_
      cases who with
      | none => exact WC.of_code (code_moveArgs args s)
      | some p => exact (WC.of_code (code_moveArgs args s)).trans (WC.of_code (code_setCoro rfl))
  | await o => cases who with
    | none => exact h0
    | some c => exact WC.of_code (code_awaitObj P s c o false)
  | awaitExt now => cases who with
    | none => cases now <;> exact h0
    | some c =>
      cases now <;> exact WC.of_code (code_setCoro (s := s) rfl)
  | drop o =>
    simp only [doUser]; split
    · exact (hr _).trans (WC.of_code (code_dropObj _ o))
    · exact WC.of_code fun _ => rfl
  | moveNew o =>
    simp only [doUser]; split
    · exact (hr _).trans (WC.of_code fun _ => rfl)
    · exact WC.of_code fun _ => rfl
  | moveAssign dst src =>
    simp only [doUser]; split
    · split
      · exact hr _
      · split
        · exact (hr _).trans (WC.of_code fun _ => rfl)
        · rename_i c _
          exact ((hr .unit).trans (WC.of_code fun _ => rfl)).trans (WC.of_code (code_deref (((s.reply who .unit).setObj dst { (s.reply who .unit).obj dst with handle := none }).push (.assign dst src)) c))
    · exact WC.of_code fun _ => rfl
  | mkNull k => exact (WC.of_code (s := s) fun _ => rfl).trans (WC.of_code (code_reply ({ s.setObj s.no { alive := true, kind := k } with no := s.no + 1 }) who _))
  | isReady o =>
    simp only [doUser]; split
    · split
      · exact (hr _).trans (WC.of_code fun _ => rfl)
      · split
        · exact WC.of_code fun _ => rfl
        · exact (hr _).trans (WC.of_code fun _ => rfl)
    · exact WC.of_code fun _ => rfl
  | waitFor o b =>
    have hne : w ≠ s.nw ∨ s.usableArg o = false := by
      rcases hw with hw | hw
      · left; omega
      · simp only [doUser] at hw
        split at hw
        · left; simp only [(spawn_w P _ _ _ _ _ _).2, State.push, State.emit, State.setW] at hw; omega
        · right; simp_all
    simp only [doUser]; split
    · refine WC.spawn P _ _ _ _ _ ?_ (WC.of_code fun _ => rfl)
      rename_i hx; simp [isW]; simp [hx] at hne; omega
    · exact WC.of_code fun _ => rfl
  | thenL o cfg =>
    simp only [doUser]; split
    · exact WC.spawn P _ _ _ _ _ rfl ((WC.of_code (s := s) fun _ => rfl).trans (WC.of_code (code_reply _ _ _)))
    · exact WC.of_code fun _ => rfl
  | thenR o cfg =>
    simp only [doUser]; split
    · exact WC.spawn P _ _ _ _ _ rfl ((WC.of_code (s := s) fun _ => rfl).trans (WC.of_code (code_reply _ _ _)))
    · exact WC.of_code fun _ => rfl
  | connect o q code =>
    simp only [doUser]; split
    · refine WC.spawn P _ _ _ _ _ rfl (WC.trans (b := (s.emit (.thenMade s.nc (s.obj o).handle ⟨false, some q, false, false⟩)).reply who .unit) ?_ (WC.of_code fun _ => rfl))
      exact (WC.of_code (s := s) fun _ => rfl).trans (WC.of_code (code_reply _ _ _))
    · exact WC.of_code fun _ => rfl
  | delCtx q =>
    exact ((WC.of_code (s := s) fun _ => rfl).trans (WC.of_code (code_reply { s with qalive := fun i => if i = q then false else s.qalive i } who _))).trans (WC.of_code fun _ => rfl)
  | note q => exact (hr _).trans (WC.of_code fun _ => rfl)

/-- Effect of an action on call `w`: none. -/
structure WSame (w : Nat) (s s' : State σ V E) (who : Option Nat) : Prop where
  cx : s'.wctx w = s.wctx w
  nw : s.nw ≤ s'.nw
  stk : ∃ fs, s'.stack = fs ++ below s who ∧ NoW w fs
  code : WC w s s'

theorem StkEff.same {w} {s s' : State σ V E} {who} (h : StkEff s s' who) (hc : WC w s s') : WSame w s s' who := by
  obtain ⟨⟨fs, h1, h2⟩, h3, h4⟩ := h
  exact ⟨by rw [h3], by omega, ⟨fs, h1, h2.noW⟩, hc⟩

theorem wsame_doUser (P : Prog σ V E) {w} {s : State σ V E} {who} (ha : Actor s who) (act) (hw : w < s.nw ∨ (doUser P s who act).nw ≤ w) : WSame w s (doUser P s who act) who := by
  have hwc := wc_doUser P who act hw
  by_cases h : ∀ o b, act ≠ .waitFor o b
  · exact (doUser_stk P ha act h).same hwc
  · simp only [Classical.not_forall, Classical.not_not] at h
    obtain ⟨o, b, rfl⟩ := h
    obtain ⟨fs, h1, h2⟩ := ha.stack
    simp only [doUser] at hwc hw ⊢
    split at hwc <;> rename_i hx
    · rw [if_pos hx] at hw ⊢
      have hne : w ≠ s.nw := by
        rcases hw with hw | hw
        · omega
        · simp only [(spawn_w P _ _ _ _ _ _).2, State.push, State.emit, State.setW] at hw; omega
      refine ⟨?_, ?_, ⟨[.body s.nc, .waitA s.nw s.no] ++ fs, ?_, ?_⟩, hwc⟩
      · simp [spawn, State.push, State.emit, State.setCoro, State.setObj, State.setW, hne]
      · simp [spawn, State.push, State.emit, State.setCoro, State.setObj, State.setW]
      · rw [List.append_assoc, ← h1]
        simp [spawn, State.push, State.emit, State.setCoro, State.setObj, State.setW]
      · intro f hf
        simp at hf
        rcases hf with rfl | rfl | hf
        · simp [wOf]
        · simp [wOf]; omega
        · exact h2.noW f hf
    · rw [if_neg hx]
      exact ⟨rfl, Nat.le_refl _, ⟨fs, h1, h2.noW⟩, hwc⟩

theorem wsame_doAct (P : Prog σ V E) {w} {s : State σ V E} {c} (ha : Actor s (some c)) (act : Act σ V E) (hw : w < s.nw ∨ (doAct P s c act).nw ≤ w)
    (hn : ∀ x, act ≠ .waitDone w x) : WSame w s (doAct P s c act) (some c) := by
  have h0 := ha.stack
  have same : ∀ s' : State σ V E, s'.stack = s.stack → s'.wctx w = s.wctx w → s'.nw = s.nw → WC w s s' → WSame w s s' (some c) := by
    intro s' h1 h2 h3 h4
    obtain ⟨fs, g1, g2⟩ := h0
    exact ⟨h2, by omega, ⟨fs, by rw [h1]; exact g1, g2.noW⟩, h4⟩
  have hr : ∀ i, WC w s (s.reply (some c) i) := fun i => WC.of_code (code_reply s _ i)
  cases act with
  | u a => exact wsame_doUser P ha a hw
  | markCb v => exact same _ rfl rfl rfl (hr _)
  | markErr v => exact same _ rfl rfl rfl (hr _)
  | ctxAlive q v => simp only [doAct]; split <;> exact same _ rfl rfl rfl (hr _)
  | waitDone w' x =>
    have hne : w' ≠ w := by rintro rfl; exact hn x rfl
    simp only [doAct]; split
    · refine same _ rfl ?_ rfl ((WC.of_code fun _ => rfl).trans (WC.of_code (code_reply _ _ _)))
      simp [State.setW, Ne.symm hne]
    · exact same _ rfl rfl rfl (WC.of_code fun _ => rfl)
  | callTmp k code v =>
    refine (spawn_stk (P := P) (s0 := s) (s := (s.setCoro c { s.coro c with inp := .obj s.no }).emit (.cbTask c s.nc)) h0 (gs := []) rfl (by simp [NW]) rfl rfl).same ?_
    exact WC.spawn P k _ _ _ _ rfl (WC.of_code (code_setCoro (s := s) rfl))
  | awaitTmp o => exact (awaitObj_stk ha).same (WC.of_code (code_awaitObj P s c o true))
  | dropTmp o =>
    simp only [doAct]; split
    · obtain ⟨gs, g1, g2⟩ := shape_app (dropObj_shape (s.reply (some c) .unit) o).1
      have := dropObj_w (s.reply (some c) .unit) o
      exact (StkEff.of h0 (by rw [g1]; simp) g2 (this.1.trans (by simp)) (this.2.trans (by simp))).same ((hr _).trans (WC.of_code (code_dropObj _ o)))
    · exact same _ rfl rfl rfl (WC.of_code fun _ => rfl)
  | stuck => exact same _ rfl rfl rfl (WC.of_code fun _ => rfl)

theorem WC.act {w} {P : Prog σ V E} {s : State σ V E} {c code} (hc : (s.coro c).code = some code) : WC w s (actState P s c code) := by
  intro i o ph h
  simp only [actState, State.setCoro] at h
  split at h
  · rename_i hx; subst hx
    cases code <;> simp [codeNext] at h
    obtain ⟨rfl, rfl, _⟩ := h
    exact ⟨_, _, hc⟩
  · exact ⟨o, ph, h⟩

/-- What a step is for call `w` of waitFor. -/
inductive WStep (P : Prog σ V E) (w : Nat) (s : State σ V E) (op : Op σ V E) : Prop
  /-- not concerned -/
  | same (cx : (step P s op).wctx w = s.wctx w) (nw : s.nw ≤ (step P s op).nw) (stk : StkTo w s (step P s op)) (code : WC w s (step P s op))
  /-- the runner reports the outcome -/
  | done (c st code x) (hop : op = .run) (hst : s.stack = .body c :: st) (hf : (s.coro c).freed = false) (hc : (s.coro c).code = some code)
      (ha : (codeNext P (s.coro c).owned code (s.coro c).inp).2 = .waitDone w x) (hal : (s.wctx w).alive = true)
      (h : step P s op = ((actState P s c code).setW w { s.wctx w with fin := some x, exit := true }).reply (some c) .unit)
  /-- it returns -/
  | ret (f st x) (hop : op = .run) (hst : s.stack = f :: st) (hf : f = .waitB w ∨ f = .loop w)
      (hx : ((s.wctx w).fin = some x ∧ (f = .loop w → (s.wctx w).exit = true)) ∨ ((s.wctx w).fin = none ∧ (s.wctx w).exit = true ∧ f = .loop w ∧ (s.wctx w).isVoid = true ∧ x = .val P.dflt))
      (h : step P s op = (((s.setW w { s.wctx w with alive := false }).pop).reply (s.wctx w).caller (.res x)).emit (.waitRet w x))
  /-- its event loop is quit from outside -/
  | exit (hop : op = .exitLoop w) (hm : .loop w ∈ s.stack)
      (h : step P s op = (s.setW w { s.wctx w with exit := true }).emit (.extExit w))

theorem wstep (P : Prog σ V E) {s : State σ V E} (op) {w} (hu : s.ub = none) (hu' : (step P s op).ub = none) (hw : w < s.nw ∨ (step P s op).nw ≤ w) : WStep P w s op := by
  have qs : ∀ fs, NoW w fs → (step P s op).stack = fs ++ s.stack → (step P s op).wctx w = s.wctx w → s.nw ≤ (step P s op).nw → WC w s (step P s op) → WStep P w s op :=
    fun fs h1 h2 h3 h4 h5 => .same h3 h4 ⟨fs, h1, .inl h2⟩ h5
  have q0 : step P s op = s → WStep P w s op := fun h => qs [] (by simp [NoW]) (by rw [h]; rfl) (by rw [h]) (by rw [h]; exact Nat.le_refl _) (by rw [h]; exact WC.refl _ _)
  cases op with
  | main a =>
    have hr : step P s (.main a) = if s.mayAct then doUser P s none a else s := by simp [step, hu]
    by_cases hx : s.mayAct = true
    · rw [if_pos hx] at hr
      obtain ⟨h1, h2, ⟨fs, h3, h4⟩, h5⟩ := wsame_doUser P (s := s) (who := none) trivial a (by rw [hr] at hw; exact hw)
      exact qs fs h4 (by rw [hr]; exact h3) (by rw [hr]; exact h1) (by rw [hr]; exact h2) (by rw [hr]; exact h5)
    · exact q0 (by rw [hr, if_neg hx])
  | fire c r =>
    by_cases hx : (s.mayAct && (s.coro c).status = .waitExt) = true
    · have hr : step P s (.fire c r) = ((s.setCoro c { s.coro c with status := .running, inp := .res r }).emit (.extRes c r)).push (.body c) := by
        simp only [step, hu]; simp [hx]
      exact qs [.body c] (by simp [NoW, wOf]) (by rw [hr]; rfl) (by rw [hr]; rfl) (by rw [hr]; exact Nat.le_refl _) (by rw [hr]; exact WC.of_code (code_setCoro (s := s) rfl))
    · exact q0 (by simp only [step, hu]; simp [hx])
  | exitLoop w' =>
    by_cases hx : (s.mayAct && s.stack.contains (.loop w')) = true
    · have hr : step P s (.exitLoop w') = (s.setW w' { s.wctx w' with exit := true }).emit (.extExit w') := by
        simp only [step, hu, hx, if_true]; rfl
      by_cases hww : w' = w
      · subst hww
        exact .exit rfl (by simp at hx; exact hx.2) hr
      · exact qs [] (by simp [NoW]) (by rw [hr]; rfl) (by rw [hr]; simp [State.emit, State.setW, Ne.symm hww]) (by rw [hr]; exact Nat.le_refl _) (by rw [hr]; exact WC.of_code fun _ => rfl)
    · exact q0 (by simp only [step, hu, hx]; simp)
  | run =>
    have hr : step P s .run = run P s := by simp [step, hu]
    cases hst : s.stack with
    | nil => exact q0 (by rw [hr]; simp only [run, hst])
    | cons f st =>
      have qt : ∀ fs, NoW w fs → (step P s .run).stack = fs ++ st → (step P s .run).wctx w = s.wctx w → s.nw ≤ (step P s .run).nw → WC w s (step P s .run) → WStep P w s .run :=
        fun fs h1 h2 h3 h4 h5 => .same h3 h4 ⟨fs, h1, .inr (.inl (by rw [hst]; exact h2))⟩ h5
      have wr : ∀ w', (f = .waitB w' ∨ f = .loop w') → (f = .waitB w' → (s.wctx w').fin.isSome = true) → (f = .loop w' → (s.wctx w').exit = true) → step P s .run = waitReturn P s w' → WStep P w s .run := by
        intro w' hf h1 h2 h
        by_cases hww : w' = w
        · subst hww
          unfold waitReturn at h; dsimp only at h
          split at h
          · rename_i x hx
            exact .ret f st x rfl hst hf (.inl ⟨hx, h2⟩) h
          · rename_i hx
            split at h
            · rename_i hv
              have hfl : f = .loop w' := by
                rcases hf with hf | hf
                · have := h1 hf; rw [hx] at this; simp at this
                · exact hf
              exact .ret f st _ rfl hst hf (.inr ⟨hx, h2 hfl, hfl, hv, rfl⟩) h
            · rw [h] at hu'; simp [State.fail] at hu'
        · have key : ∀ r : Res V E, step P s .run = (((s.setW w' { s.wctx w' with alive := false }).pop).reply (s.wctx w').caller (.res r)).emit (.waitRet w' r) → WStep P w s .run := by
            intro r h
            refine qt [] (by simp [NoW]) (by rw [h]; simp [State.emit, State.pop, State.setW, hst]) (by rw [h]; simp [State.emit, State.pop, State.setW, Ne.symm hww]) (by rw [h]; simp [State.emit, State.pop, State.setW]) ?_
            rw [h]
            exact (WC.of_code (s := s) (s' := (s.setW w' { s.wctx w' with alive := false }).pop) fun _ => rfl).trans (WC.of_code (code_reply _ _ _))
          unfold waitReturn at h; dsimp only at h
          split at h
          · exact key _ h
          · split at h
            · exact key _ h
            · rw [h] at hu'; simp [State.fail] at hu'
      cases f with
      | body c =>
        cases hf : (s.coro c).freed with
        | true => rw [hr] at hu'; simp [run, hst, hf, State.fail] at hu'
        | false =>
          cases hcode : (s.coro c).code with
          | none => rw [hr] at hu'; simp [run, hst, hf, hcode, State.fail] at hu'
          | some code =>
            have h := step_run_body (P := P) hu hst hf hcode
            by_cases hd : ∀ x, (codeNext P (s.coro c).owned code (s.coro c).inp).2 ≠ .waitDone w x
            · have hA : Actor (actState P s c code) (some c) := ⟨st, hst⟩
              obtain ⟨h1, h2, ⟨fs, h3, h4⟩, h5⟩ := wsame_doAct P hA _ (w := w) (by rw [h] at hw; exact hw) hd
              refine qt fs h4 ?_ (by rw [h]; exact h1) (by rw [h]; exact h2) (by rw [h]; exact (WC.act hcode).trans h5)
              rw [h, h3]; show fs ++ s.stack.tail = _; rw [hst]; rfl
            · simp only [Classical.not_forall, Classical.not_not] at hd
              obtain ⟨x, hd⟩ := hd
              rw [hd] at h
              simp only [doAct] at h
              split at h
              · rename_i hal
                exact .done c st code x rfl hst hf hcode hd hal h
              · rw [h] at hu'; simp [State.fail] at hu'
      | final c =>
        cases hf : (s.coro c).freed with
        | true => rw [hr] at hu'; simp [run, hst, hf, State.fail] at hu'
        | false =>
          cases hfin : (s.coro c).fin with
          | nil =>
            have h : step P s .run = deref ((s.setCoro c { s.coro c with selfRef := false }).pop) c := by rw [hr]; simp [run, hst, hf, hfin]
            obtain ⟨gs, g1, g2⟩ := shape_app (deref_shape ((s.setCoro c { s.coro c with selfRef := false }).pop) c).1
            have hww := deref_w ((s.setCoro c { s.coro c with selfRef := false }).pop) c
            refine qt gs g2.noW (by rw [h, g1]; simp [State.pop, State.setCoro, hst]) (by rw [h, hww.1]; rfl) (by rw [h, hww.2]; exact Nat.le_refl _) ?_
            rw [h]
            exact (WC.of_code (s := s) (s' := (s.setCoro c { s.coro c with selfRef := false }).pop) (code_setCoro rfl)).trans (WC.of_code (code_deref _ _))
          | cons a rest =>
            have hrun : run P s = (let t := s.setCoro c { s.coro c with fin := rest }
              if (t.coro a).freed then t.fail .uaf
              else if (t.coro a).status = .waitTask c then
                match (t.coro c).result with
                | none => t.fail .noResult
                | some r =>
                  let t := t.setCoro c { t.coro c with result := some (afterRead P r) }
                  let t := t.setCoro a { t.coro a with status := .running, inp := .res r }
                  (t.emit (.gotWoken a c r)).push (.body a)
              else t.fail .badResume) := by
              unfold run; rw [hst]; dsimp only; rw [if_neg (by simp [hf]), hfin]; rfl
            dsimp only at hrun
            rw [hr, hrun] at hu'
            split at hu'
            · simp [State.fail] at hu'
            · rename_i h1
              rw [if_neg h1] at hrun
              split at hu'
              · rename_i h2
                rw [if_pos h2] at hrun
                split at hu'
                · simp [State.fail] at hu'
                · rename_i r h3
                  rw [h3] at hrun
                  dsimp only at hrun
                  refine qs [.body a] (by simp [NoW, wOf]) (by rw [hr, hrun]; rfl) (by rw [hr, hrun]; rfl) (by rw [hr, hrun]; exact Nat.le_refl _) ?_
                  rw [hr, hrun]
                  refine WC.of_code ?_
                  intro i
                  simp only [State.push, State.emit, State.setCoro]
                  grind
              · simp [State.fail] at hu'
      | drops os =>
        cases os with
        | nil =>
          have h : step P s .run = s.pop := by rw [hr]; simp [run, hst]
          exact qt [] (by simp [NoW]) (by rw [h]; simp [State.pop, hst]) (by rw [h]; rfl) (by rw [h]; exact Nat.le_refl _) (by rw [h]; exact WC.of_code fun _ => rfl)
        | cons o os =>
          have h : step P s .run = if (s.pop.push (.drops os)).usable true o then dropObj (s.pop.push (.drops os)) o else (s.pop.push (.drops os)).fail ((s.pop.push (.drops os)).objFault o) := by
            rw [hr]; simp only [run, hst]
          split at h
          · obtain ⟨gs, g1, g2⟩ := shape_app (dropObj_shape (s.pop.push (.drops os)) o).1
            have hww := dropObj_w (s.pop.push (.drops os)) o
            refine qt (gs ++ [.drops os]) ?_ (by rw [h, g1]; simp [State.pop, State.push, hst]) (by rw [h, hww.1]; rfl) (by rw [h, hww.2]; exact Nat.le_refl _) ?_
            · intro f hf; simp at hf; rcases hf with hf | rfl
              · exact g2.noW f hf
              · simp [wOf]
            · rw [h]; exact (WC.of_code (s := s) (s' := s.pop.push (.drops os)) fun _ => rfl).trans (WC.of_code (code_dropObj _ _))
          · rw [h] at hu'; simp [State.fail] at hu'
      | assign dst src =>
        have h := hr
        simp only [run, hst] at h
        split at h
        · exact qt [] (by simp [NoW]) (by rw [h]; simp [State.pop, State.setObj, hst]) (by rw [h]; rfl) (by rw [h]; exact Nat.le_refl _) (by rw [h]; exact WC.of_code fun _ => rfl)
        · rw [h] at hu'; simp [State.fail] at hu'
      | waitA w' tmp =>
        have h : step P s .run = if (s.pop.push (.waitB w')).usable true tmp then dropObj (s.pop.push (.waitB w')) tmp else (s.pop.push (.waitB w')).fail ((s.pop.push (.waitB w')).objFault tmp) := by
          rw [hr]; simp only [run, hst]
        split at h
        · obtain ⟨gs, g1, g2⟩ := shape_app (dropObj_shape (s.pop.push (.waitB w')) tmp).1
          have hww := dropObj_w (s.pop.push (.waitB w')) tmp
          refine .same (by rw [h, hww.1]; rfl) (by rw [h, hww.2]; exact Nat.le_refl _) ⟨gs, g2.noW, .inr (.inr ⟨.waitA w' tmp, .waitB w', st, hst, rfl, ?_⟩)⟩ ?_
          · rw [h, g1]; simp [State.pop, State.push, hst]
          · rw [h]; exact (WC.of_code (s := s) (s' := s.pop.push (.waitB w')) fun _ => rfl).trans (WC.of_code (code_dropObj _ _))
        · rw [h] at hu'; simp [State.fail] at hu'
      | waitB w' =>
        by_cases hx : (s.wctx w').fin.isSome = true
        · exact wr w' (.inl rfl) (fun _ => hx) (by simp) (by rw [hr]; simp [run, hst, hx])
        · have h : step P s .run = (s.pop.push (.loop w')).emit (.loopEnter w') := by
            rw [hr]; simp only [run, hst]; rw [if_neg hx]
          exact .same (by rw [h]; rfl) (by rw [h]; exact Nat.le_refl _) ⟨[], by simp [NoW], .inr (.inr ⟨.waitB w', .loop w', st, hst, rfl, by rw [h]; simp [State.emit, State.push, State.pop, hst]⟩)⟩ (by rw [h]; exact WC.of_code fun _ => rfl)
      | loop w' =>
        by_cases hx : (s.wctx w').exit = true
        · exact wr w' (.inr rfl) (by simp) (fun _ => hx) (by rw [hr]; simp [run, hst, hx])
        · exact q0 (by rw [hr]; simp only [run, hst]; rw [if_neg hx])

end QCoro.Task
