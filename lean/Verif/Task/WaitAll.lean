import Verif.Task.WaitRun

/-! Every call of `waitFor` made in a run satisfies the invariant of `WaitRun`; the two undefined behaviours of `waitFor`. -/
namespace QCoro.Task
variable {σ V E : Type}

theorem waitReturn_nw (P : Prog σ V E) (s : State σ V E) (w) : (waitReturn P s w).nw = s.nw := by
  unfold waitReturn; dsimp only
  split
  · simp [State.emit, State.pop, State.setW]
  · split
    · simp [State.emit, State.pop, State.setW]
    · rfl

theorem awaitObj_nw (P : Prog σ V E) (s : State σ V E) (a o priv) : (awaitObj P s a o priv).nw = s.nw := by
  rcases awaitObj_cases P s a o priv with ⟨u, h1⟩ | ⟨_, _, _, h1⟩ | ⟨_, _, _, _, ⟨_, _, _, h1⟩ | ⟨_, _, h1⟩ | ⟨_, _, h1⟩⟩ <;> rw [h1] <;> rfl

/-- Which steps make a call of `waitFor`. -/
theorem step_nw (P : Prog σ V E) {s : State σ V E} (op) (hu : s.ub = none) :
    (step P s op).nw = s.nw ∨ ((step P s op).nw = s.nw + 1 ∧ ∃ who o b evs, Performs P s op who (.waitFor o b) ∧
      (step P s op).log = s.log ++ .waitCall s.nw s.nc (s.aim o) :: evs) := by
  have user : ∀ (s1 : State σ V E) who act, Actor s1 who → s1.nw = s.nw → s1.log = s.log → s1.nc = s.nc → s1.obj = s.obj → (∀ o b, act = .waitFor o b → Performs P s op who (.waitFor o b)) →
      step P s op = doUser P s1 who act →
      (step P s op).nw = s.nw ∨ ((step P s op).nw = s.nw + 1 ∧ ∃ who o b evs, Performs P s op who (.waitFor o b) ∧
        (step P s op).log = s.log ++ .waitCall s.nw s.nc (s.aim o) :: evs) := by
    intro s1 who act hA hn hl hc ho hp hs
    by_cases h : ∀ o b, act ≠ .waitFor o b
    · left; rw [hs, (doUser_stk P hA act h).2.2, hn]
    · simp only [Classical.not_forall, Classical.not_not] at h
      obtain ⟨o, b, rfl⟩ := h
      by_cases hx : s1.usableArg o = true
      · right
        rw [hs]
        refine ⟨?_, who, o, b, [.spawned s.nc .eager, .started s.nc], hp o b rfl, ?_⟩
        · simp only [doUser]; rw [if_pos hx, (spawn_w P _ _ _ _ _ _).2, ← hn]; rfl
        · simp only [doUser]; rw [if_pos hx]
          cases o <;> simp [spawn, State.push, State.emit, State.setCoro, State.setObj, State.setW, State.aim, hn, hl, hc, ho]
      · left; rw [hs]; simp only [doUser]; rw [if_neg hx]; exact hn
  cases op with
  | main a =>
    have hr : step P s (.main a) = if s.mayAct then doUser P s none a else s := by simp [step, hu]
    by_cases hx : s.mayAct = true
    · rw [if_pos hx] at hr
      exact user s none a trivial rfl rfl rfl rfl (fun o b hb => ⟨hu, .inl ⟨rfl, by rw [hb], hx⟩⟩) hr
    · left; rw [hr, if_neg hx]
  | fire c r => left; simp only [step, hu]; simp; split <;> rfl
  | exitLoop w' => left; simp only [step, hu]; simp; split <;> rfl
  | run =>
    have hr : step P s .run = run P s := by simp [step, hu]
    cases hst : s.stack with
    | nil => left; rw [hr]; simp [run, hst]
    | cons f st =>
      cases f with
      | body c =>
        cases hf : (s.coro c).freed with
        | true => left; rw [hr]; simp [run, hst, hf, State.fail]
        | false =>
          cases hcode : (s.coro c).code with
          | none => left; rw [hr]; simp [run, hst, hf, hcode, State.fail]
          | some code =>
            have h := step_run_body (P := P) hu hst hf hcode
            have hA : Actor (actState P s c code) (some c) := ⟨st, hst⟩
            cases hact : (codeNext P (s.coro c).owned code (s.coro c).inp).2 with
            | u a =>
              rw [hact] at h
              exact user (actState P s c code) (some c) a hA rfl rfl rfl rfl (fun o b hb => ⟨hu, .inr ⟨c, st, code, rfl, rfl, hst, hf, hcode, by rw [hact, hb]⟩⟩) h
            | markCb v => left; rw [h, hact]; rfl
            | markErr v => left; rw [h, hact]; rfl
            | ctxAlive q v => left; rw [h, hact]; simp only [doAct]; split <;> rfl
            | waitDone w' x => left; rw [h, hact]; simp only [doAct]; split <;> rfl
            | callTmp k code' v => left; rw [h, hact]; simp only [doAct]; rw [(spawn_w P _ _ _ _ _ _).2]; rfl
            | awaitTmp o => left; rw [h, hact]; simp only [doAct]; rw [awaitObj_nw]; rfl
            | dropTmp o =>
              left; rw [h, hact]; simp only [doAct]; split
              · rw [(dropObj_w _ _).2]; rfl
              · rfl
            | stuck => left; rw [h, hact]; rfl
      | final c =>
        left; rw [hr]; unfold run; rw [hst]; dsimp only
        split
        · rfl
        · split
          · split
            · rfl
            · split
              · split <;> rfl
              · rfl
          · rw [(deref_w _ _).2]; rfl
      | drops os =>
        left; rw [hr]; unfold run; rw [hst]; dsimp only
        split
        · rfl
        · split
          · rw [(dropObj_w _ _).2]; rfl
          · rfl
      | assign dst src =>
        left; rw [hr]; unfold run; rw [hst]; dsimp only
        split <;> rfl
      | waitA w' tmp =>
        left; rw [hr]; unfold run; rw [hst]; dsimp only
        split
        · rw [(dropObj_w _ _).2]; rfl
        · rfl
      | waitB w' =>
        left; rw [hr]; unfold run; rw [hst]; dsimp only
        split
        · exact waitReturn_nw P s w'
        · rfl
      | loop w' =>
        left; rw [hr]; unfold run; rw [hst]; dsimp only
        split
        · exact waitReturn_nw P s w'
        · rfl

/-- Every call made so far. -/
def AllW (P : Prog σ V E) (s : State σ V E) : Prop :=
  ∀ w, w < s.nw → ∃ who r oo h b, WT P who w r oo h b s ∧ .waitCall w r h ∈ s.log

theorem step_log_mono (P : Prog σ V E) (s : State σ V E) (op) {e} (h : e ∈ s.log) : e ∈ (step P s op).log := by
  obtain ⟨evs, hl⟩ := step_log P s op
  rw [hl]; simp [h]

theorem exec_allW (P : Prog σ V E) (ops) (hu : (exec P ops).ub = none) : AllW P (exec P ops) := by
  induction ops using QCoro.snocInd with
  | nil => intro w hw; simp [exec, init] at hw
  | snoc l x ih =>
    have hul : (exec P l).ub = none := exec_ub_prefix _ [x] hu
    have ih := ih hul
    intro w hw
    by_cases hlt : w < (exec P l).nw
    · obtain ⟨who, r, oo, h, b, h1, h2⟩ := ih w hlt
      refine ⟨who, r, oo, h, b, ?_, ?_⟩
      · rw [exec_snoc] at hu ⊢; exact WT_step h1 (exec_inv P _ hul) (exec_linv P _) hul x hu
      · rw [exec_snoc]; exact step_log_mono P _ x h2
    · rw [exec_snoc] at hw
      rcases step_nw P x hul with h1 | ⟨h1, who, o, b, evs, h2, h3⟩
      · omega
      · have : w = (exec P l).nw := by omega
        subst this
        obtain ⟨oo, h4⟩ := waits_WT (.mk who o b h2) hu
        refine ⟨who, _, oo, _, b, h4, ?_⟩
        rw [exec_snoc, h3]; simp

/-! ### Undefined behaviour of waitFor -/

/-- `u` is not one of the two ways waitFor goes wrong. -/
def NoUW (s : State σ V E) : Prop := s.ub ≠ some .waitNoResult ∧ s.ub ≠ some .waitCtxDead

theorem NoUW.fail {s : State σ V E} {u} (h : u ≠ .waitNoResult) (h2 : u ≠ .waitCtxDead) : NoUW (s.fail u) := by
  constructor <;> simp [State.fail, h, h2]
theorem NoUW.objFault {s : State σ V E} {o} : NoUW (s.fail (s.objFault o)) := by
  unfold State.objFault; split <;> exact .fail (by simp) (by simp)
theorem NoUW.of_eq {s s' : State σ V E} (h : s.ub = none) (k : s'.ub = s.ub) : NoUW s' := by
  constructor <;> rw [k, h] <;> simp

theorem deref_nouw {s : State σ V E} (c) (h : s.ub = none) : NoUW (deref s c) := by
  unfold deref
  split
  · exact .fail (by simp) (by simp)
  · split
    · exact .fail (by simp) (by simp)
    · split
      · exact .fail (by simp) (by simp)
      · exact .of_eq h rfl
    · exact .of_eq h rfl

theorem dropObj_nouw {s : State σ V E} (o) (h : s.ub = none) : NoUW (dropObj s o) := by
  unfold dropObj
  split
  · exact .of_eq h rfl
  · exact deref_nouw _ h

theorem awaitObj_nouw (P : Prog σ V E) {s : State σ V E} (a o priv) (h : s.ub = none) : NoUW (awaitObj P s a o priv) := by
  unfold awaitObj
  split
  · split
    · split
      · exact .of_eq h rfl
      · exact .fail (by simp) (by simp)
    · split
      · exact .fail (by simp) (by simp)
      · split
        · split
          · exact .fail (by simp) (by simp)
          · exact .of_eq h rfl
        · split
          · exact .of_eq h rfl
          · split
            · exact .of_eq h rfl
            · exact .fail (by simp) (by simp)
  · split
    · exact .objFault
    · exact .fail (by simp) (by simp)

theorem moveArgs_ub (as : List Nat) : ∀ (s : State σ V E), s.ub = none → (moveArgs s as).1.ub = none ∨ (moveArgs s as).1.ub = some .badObj := by
  induction as with
  | nil => intro s h; exact .inl h
  | cons a as ih =>
    intro s h; simp only [moveArgs]; split
    · exact ih _ h
    · exact .inr rfl

theorem doUser_nouw (P : Prog σ V E) {s : State σ V E} (who act) (h : s.ub = none) : NoUW (doUser P s who act) := by
  have hr : ∀ i, (s.reply who i).ub = none := fun i => by rw [reply_ub]; exact h
  cases act with
  | ret v => cases who with
    | none => exact .of_eq h rfl
    | some c => exact .of_eq h rfl
  | throw v => cases who with
    | none => exact .of_eq h rfl
    | some c => exact .of_eq h rfl
  | call k code v args =>
    simp only [doUser]
    split
    · rcases moveArgs_ub args s h with h1 | h1
      · exact .of_eq h1 rfl
      · constructor <;> rw [h1] <;> simp
    · rename_i hx
      refine .of_eq (s := (moveArgs s args).1) (by simpa using hx) ?_
      rw [spawn_ub]; cases who <;> rfl
  | await o => cases who with
    | none => exact .of_eq h rfl
    | some c => exact awaitObj_nouw P c o false h
  | awaitExt now => cases who with
    | none => cases now <;> exact .of_eq h rfl
    | some c =>
      cases now <;> exact .of_eq h rfl
  | drop o =>
    simp only [doUser]; split
    · exact dropObj_nouw _ (hr _)
    · exact .fail (by simp) (by simp)
  | moveNew o =>
    simp only [doUser]; split
    · exact .of_eq (hr (.obj s.no)) rfl
    · exact .fail (by simp) (by simp)
  | moveAssign dst src =>
    simp only [doUser]; split
    · split
      · exact .of_eq (hr .unit) rfl
      · split
        · exact .of_eq (hr .unit) rfl
        · exact deref_nouw _ (hr .unit)
    · exact .fail (by simp) (by simp)
  | mkNull k =>
    simp only [doUser]
    exact .of_eq h (by rw [reply_ub]; rfl)
  | isReady o =>
    simp only [doUser]; split
    · split
      · exact .of_eq (hr (.flag true)) rfl
      · split
        · exact .fail (by simp) (by simp)
        · exact .of_eq (hr _) rfl
    · exact .fail (by simp) (by simp)
  | waitFor o b =>
    simp only [doUser]; split
    · exact .of_eq h (by rw [spawn_ub]; rfl)
    · exact .fail (by simp) (by simp)
  | thenL o cfg =>
    simp only [doUser]; split
    · exact .of_eq h (by rw [spawn_ub, reply_ub]; rfl)
    · exact .fail (by simp) (by simp)
  | thenR o cfg =>
    simp only [doUser]; split
    · exact .of_eq h (by rw [spawn_ub, reply_ub]; rfl)
    · exact .fail (by simp) (by simp)
  | connect o q code =>
    simp only [doUser]; split
    · refine .of_eq h ?_
      rw [spawn_ub]; exact reply_ub _ _ _
    · exact .fail (by simp) (by simp)
  | delCtx q =>
    simp only [doUser]
    exact .of_eq h (by show (State.reply _ _ _).ub = _; rw [reply_ub])
  | note q => exact .of_eq (hr .unit) rfl

/-- Where the two come from. -/
inductive UWCase (P : Prog σ V E) (s : State σ V E) (op : Op σ V E) : Prop
  /-- waitFor of a value-returning task returns without a result -/
  | noRes (w st) (hop : op = .run) (hst : s.stack = .loop w :: st) (he : (s.wctx w).exit = true) (hf : (s.wctx w).fin = none) (hv : (s.wctx w).isVoid = false)
      (hs : step P s op = s.fail .waitNoResult)
  /-- the runner of a call that returned reports to the dead context -/
  | dead (c st w o x) (hop : op = .run) (hst : s.stack = .body c :: st) (hf : (s.coro c).freed = false) (hc : (s.coro c).code = some (.waitRun w o .waiting))
      (hi : (s.coro c).inp = .res x) (hd : (s.wctx w).alive = false) (hs : (step P s op).ub = some .waitCtxDead) (hl : (step P s op).log = s.log)

theorem step_uw (P : Prog σ V E) {s : State σ V E} (op) (hu : s.ub = none) (hn : ¬ NoUW (step P s op)) : UWCase P s op := by
  have h0 : NoUW s := .of_eq hu rfl
  cases op with
  | main a =>
    have hr : step P s (.main a) = if s.mayAct then doUser P s none a else s := by simp [step, hu]
    split at hr <;> rw [hr] at hn
    · exact absurd (doUser_nouw P none a hu) hn
    · exact absurd h0 hn
  | fire c r =>
    exfalso; apply hn
    have : (step P s (.fire c r)).ub = s.ub := by simp only [step, hu]; simp; split <;> simp [State.push, State.emit, State.setCoro, hu]
    exact .of_eq hu this
  | exitLoop w =>
    exfalso; apply hn
    have : (step P s (.exitLoop w)).ub = s.ub := by simp only [step, hu]; simp; split <;> simp [State.emit, State.setW, hu]
    exact .of_eq hu this
  | run =>
    have hr : step P s .run = run P s := by simp [step, hu]
    cases hst : s.stack with
    | nil => rw [hr] at hn; simp only [run, hst] at hn; exact absurd h0 hn
    | cons f st =>
      cases f with
      | body c =>
        cases hf : (s.coro c).freed with
        | true => rw [hr] at hn; simp only [run, hst, hf, if_true] at hn; exact absurd (NoUW.fail (by simp) (by simp)) hn
        | false =>
          cases hcode : (s.coro c).code with
          | none => rw [hr] at hn; simp only [run, hst, hf, hcode] at hn; exact absurd (NoUW.fail (by simp) (by simp)) hn
          | some code =>
            have h := step_run_body (P := P) hu hst hf hcode
            have hu1 : (actState P s c code).ub = none := hu
            have hl1 : (actState P s c code).log = s.log := rfl
            have hw1 : (actState P s c code).wctx = s.wctx := rfl
            cases hact : (codeNext P (s.coro c).owned code (s.coro c).inp).2 with
            | u a => rw [h, hact] at hn; exact absurd (doUser_nouw P _ a hu1) hn
            | markCb v => rw [h, hact] at hn; exact absurd (.of_eq hu1 rfl) hn
            | markErr v => rw [h, hact] at hn; exact absurd (.of_eq hu1 rfl) hn
            | ctxAlive q v => rw [h, hact] at hn; simp only [doAct] at hn; split at hn <;> exact absurd (.of_eq hu1 rfl) hn
            | waitDone w x =>
              have hcd : ∃ o, code = .waitRun w o .waiting ∧ (s.coro c).inp = .res x := by
                cases code with
                | user u => simp [codeNext] at hact
                | waitRun w' o' ph' =>
                  simp only [codeNext] at hact
                  revert hact; generalize (s.coro c).inp = i
                  cases ph' <;> cases i <;> simp [waitNext]
                | thenC o' cfg ph' =>
                  simp only [codeNext] at hact
                  revert hact
                  unfold thenNext
                  split <;> first | (split <;> first | (split <;> simp) | simp) | simp
              obtain ⟨o, rfl, hi⟩ := hcd
              rw [hact] at h
              simp only [doAct] at h
              split at h
              · rw [h] at hn
                exact absurd (.of_eq hu1 (by rw [reply_ub]; rfl)) hn
              · rename_i hal
                refine .dead c st w o x rfl hst hf hcode hi (by rw [hw1] at hal; simpa using hal) (by rw [h]; rfl) (by rw [h]; rfl)
            | callTmp k code' v => rw [h, hact] at hn; refine absurd (.of_eq hu1 ?_) hn; simp only [doAct]; rw [spawn_ub]; rfl
            | awaitTmp o => rw [h, hact] at hn; exact absurd (awaitObj_nouw P c o true hu1) hn
            | dropTmp o =>
              rw [h, hact] at hn; simp only [doAct] at hn; split at hn
              · exact absurd (dropObj_nouw _ (by rw [reply_ub]; exact hu1)) hn
              · exact absurd .objFault hn
            | stuck => rw [h, hact] at hn; exact absurd (NoUW.fail (by simp) (by simp)) hn
      | final c =>
        exfalso; apply hn
        rw [hr]; unfold run; rw [hst]; dsimp only
        split
        · exact .fail (by simp) (by simp)
        · split
          · split
            · exact .fail (by simp) (by simp)
            · split
              · split
                · exact .fail (by simp) (by simp)
                · exact .of_eq hu rfl
              · exact .fail (by simp) (by simp)
          · exact deref_nouw _ hu
      | drops os =>
        exfalso; apply hn
        rw [hr]; unfold run; rw [hst]; dsimp only
        split
        · exact .of_eq hu rfl
        · split
          · exact dropObj_nouw _ hu
          · exact .objFault
      | assign dst src =>
        exfalso; apply hn
        rw [hr]; unfold run; rw [hst]; dsimp only
        split
        · exact .of_eq hu rfl
        · exact .fail (by simp) (by simp)
      | waitA w' tmp =>
        exfalso; apply hn
        rw [hr]; unfold run; rw [hst]; dsimp only
        split
        · exact dropObj_nouw _ hu
        · exact .objFault
      | waitB w' =>
        exfalso; apply hn
        rw [hr]; unfold run; rw [hst]; dsimp only
        split
        · rename_i hf
          unfold waitReturn; dsimp only; split
          · exact .of_eq hu (by show (State.reply _ _ _).ub = _; rw [reply_ub]; rfl)
          · rename_i hx; rw [hx] at hf; simp at hf
        · exact .of_eq hu rfl
      | loop w' =>
        rw [hr] at hn; unfold run at hn; rw [hst] at hn; dsimp only at hn
        split at hn
        · rename_i he
          unfold waitReturn at hn; dsimp only at hn
          split at hn
          · exact absurd (.of_eq hu (by show (State.reply _ _ _).ub = _; rw [reply_ub]; rfl)) hn
          · rename_i hf
            split at hn
            · exact absurd (.of_eq hu (by show (State.reply _ _ _).ub = _; rw [reply_ub]; rfl)) hn
            · rename_i hv
              refine .noRes w' st rfl hst he hf (by simpa using hv) ?_
              rw [hr]; unfold run; rw [hst]; dsimp only; rw [if_pos he]; unfold waitReturn; dsimp only; rw [hf]; dsimp only; rw [if_neg hv]
        · exact absurd h0 hn

end QCoro.Task
