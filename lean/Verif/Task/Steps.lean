import Verif.Task.Life

/-! Which steps emit which events. -/
namespace QCoro.Task
variable {σ V E : Type}

/-- Events that are not the start or the end of a `co_await` on a Task. -/
def evQ : Ev V E → Prop
  | .awaitReg _ _ => False
  | .gotReady _ _ _ => False
  | .gotWoken _ _ _ => False
  | .hung _ => False
  | _ => True

theorem evOK.q {who} {e : Ev V E} (h : evOK who e) : evQ e := by cases e <;> simp_all [evOK, evQ]

/-- The state after `d`'s completion resumed `a`. -/
def wokenState (P : Prog σ V E) (s : State σ V E) (c a : Nat) (rest : List Nat) (r : Res V E) : State σ V E :=
  let s := s.setCoro c { s.coro c with fin := rest }
  let s := s.setCoro c { s.coro c with result := some (afterRead P r) }
  let s := s.setCoro a { s.coro a with status := .running, inp := .res r }
  (s.emit (.gotWoken a c r)).push (.body a)

/-- Coroutine `c` picks its next action. -/
def actState (P : Prog σ V E) (s : State σ V E) (c : Nat) (code : Code σ V E) : State σ V E :=
  s.setCoro c { s.coro c with code := some (codeNext P (s.coro c).owned code (s.coro c).inp).1 }

inductive RunCase (P : Prog σ V E) (s : State σ V E) : Prop
  | quiet (evs) (h : (run P s).log = s.log ++ evs) (hq : ∀ e ∈ evs, evQ e)
  | await (c st code o priv) (hst : s.stack = .body c :: st) (hf : (s.coro c).freed = false) (hc : (s.coro c).code = some code)
      (ha : (codeNext P (s.coro c).owned code (s.coro c).inp).2 = if priv then .awaitTmp o else .u (.await o))
      (h : run P s = awaitObj P (actState P s c code) c o priv)
  | woken (c st a rest r) (hst : s.stack = .final c :: st) (hf : (s.coro c).freed = false) (hfin : (s.coro c).fin = a :: rest)
      (ha : (s.coro a).status = .waitTask c) (hac : a ≠ c → (s.coro c).result = some r) (h : run P s = wokenState P s c a rest r)

theorem run_cases (P : Prog σ V E) (s : State σ V E) : RunCase P s := by
  have dr : ∀ (t : State σ V E) c, ∃ evs, (deref t c).log = t.log ++ evs ∧ ∀ e ∈ evs, evQ e := fun t c => by
    obtain ⟨e, h, h2⟩ := (eff2_deref t c none).log; exact ⟨e, h, fun e he => (h2 e he).q⟩
  have dob : ∀ (t : State σ V E) o, ∃ evs, (dropObj t o).log = t.log ++ evs ∧ ∀ e ∈ evs, evQ e := fun t o => by
    unfold dropObj; split
    · exact ⟨[], by simp [State.setObj]⟩
    · exact dr _ _
  have hquiet : (∃ evs, (run P s).log = s.log ++ evs ∧ ∀ e ∈ evs, evQ e) → RunCase P s := by
    rintro ⟨evs, h, hq⟩; exact .quiet evs h hq
  have nil : (run P s).log = s.log → RunCase P s := fun h => .quiet [] (by simp [h]) (by simp)
  have wr : ∀ w, ∃ evs, (waitReturn P s w).log = s.log ++ evs ∧ ∀ e ∈ evs, evQ e := by
    intro w; unfold waitReturn; dsimp only; split
    · exact ⟨[.waitRet w _], by simp [State.emit, State.pop, State.setW]; rfl, by simp [evQ]⟩
    · split
      · exact ⟨[.waitRet w _], by simp [State.emit, State.pop, State.setW]; rfl, by simp [evQ]⟩
      · exact ⟨[], by simp [State.fail]⟩
  cases hst : s.stack with
  | nil => exact nil (by simp [run, hst])
  | cons f st =>
    cases f with
    | body c =>
      cases hf : (s.coro c).freed with
      | true => exact nil (by simp [run, hst, hf, State.fail])
      | false =>
        cases hcode : (s.coro c).code with
        | none => exact nil (by simp [run, hst, hf, hcode, State.fail])
        | some code =>
          have hrun : run P s = doAct P (actState P s c code) c (codeNext P (s.coro c).owned code (s.coro c).inp).2 := by
            simp [run, hst, hf, hcode, actState]
          have hl : (actState P s c code).log = s.log := rfl
          cases hact : (codeNext P (s.coro c).owned code (s.coro c).inp).2 with
          | u a =>
            by_cases hna : ∀ o, a ≠ .await o
            · apply hquiet
              rw [hrun, hact]
              obtain ⟨e, h, h2⟩ := (eff2_doUser P (actState P s c code) (some c) a hna).log
              exact ⟨e, h, fun e he => (h2 e he).q⟩
            · simp only [Classical.not_forall, Classical.not_not] at hna
              obtain ⟨o, rfl⟩ := hna
              exact .await c st code o false hst hf hcode (by simpa using hact) (by rw [hrun, hact]; rfl)
          | awaitTmp o => exact .await c st code o true hst hf hcode (by simpa using hact) (by rw [hrun, hact]; rfl)
          | markCb v => apply hquiet; rw [hrun, hact]; exact ⟨[.cb c v], rfl, by simp [evQ]⟩
          | markErr v => apply hquiet; rw [hrun, hact]; exact ⟨[.err c v], rfl, by simp [evQ]⟩
          | ctxAlive q v =>
            apply hquiet; rw [hrun, hact]; simp only [doAct]
            split
            · exact ⟨[.cb c v], rfl, by simp [evQ]⟩
            · exact ⟨[.guardDead c], rfl, by simp [evQ]⟩
          | waitDone w r =>
            apply hquiet; rw [hrun, hact]; simp only [doAct]
            split <;> exact ⟨[], by simp [State.setW, State.fail, hl], by simp⟩
          | callTmp k code' v =>
            apply hquiet; rw [hrun, hact]
            obtain ⟨e, h, h2⟩ := (eff2_spawn P (((actState P s c code).setCoro c { (actState P s c code).coro c with inp := .obj s.no }).emit (.cbTask c s.nc)) k (.user code') [] v (.tmp c) none).log
            refine ⟨.cbTask c s.nc :: e, ?_, ?_⟩
            · have h3 : (doAct P (actState P s c code) c (.callTmp k code' v)).log = _ := h
              rw [h3]; simp [State.emit, State.setCoro, actState]
            · intro e' he'
              rcases List.mem_cons.1 he' with rfl | he'
              · trivial
              · exact (h2 e' he').q
          | dropTmp o =>
            apply hquiet; rw [hrun, hact]; simp only [doAct]; split
            · obtain ⟨e, h, h2⟩ := dob ((actState P s c code).reply (some c) .unit) o
              exact ⟨e, h, h2⟩
            · exact ⟨[], by simp [State.fail, hl], by simp⟩
          | stuck => apply hquiet; rw [hrun, hact]; exact ⟨[], by simp [doAct, State.fail, hl], by simp⟩
    | final c =>
      cases hf : (s.coro c).freed with
      | true => exact nil (by simp [run, hst, hf, State.fail])
      | false =>
        cases hfin : (s.coro c).fin with
        | nil =>
          apply hquiet
          have : run P s = deref ((s.setCoro c { s.coro c with selfRef := false }).pop) c := by simp [run, hst, hf, hfin]
          rw [this]; exact dr _ _
        | cons a rest =>
          have hrun : run P s = (let t := s.setCoro c { s.coro c with fin := rest }
              if (t.coro a).freed then t.fail .uaf
              else if (t.coro a).status = .waitTask c then
                match (t.coro c).result with
                | none => t.fail .noResult
                | some r =>
                  let t := t.setCoro c { t.coro c with result := some (afterRead P r) }
                  let t := t.setCoro a { t.coro a with status := .running, inp := .res r }
                  (t.emit (.gotWoken a c r)).push (.body a)
              else t.fail .badResume) := by
            unfold run; rw [hst]; dsimp only; rw [if_neg (by simp [hf]), hfin]; rfl
          dsimp only at hrun
          by_cases h1 : ((s.setCoro c { s.coro c with fin := rest }).coro a).freed = true
          · exact nil (by simp only [hrun, if_false, h1, if_true]; rfl)
          · by_cases h2 : ((s.setCoro c { s.coro c with fin := rest }).coro a).status = .waitTask c
            · cases h3 : ((s.setCoro c { s.coro c with fin := rest }).coro c).result with
              | none => exact nil (by simp only [hrun, if_false, h1, h2, h3, if_true]; rfl)
              | some r =>
                refine .woken c st a rest r hst hf hfin ?_ ?_ ?_
                · simp only [State.setCoro] at h2; split at h2
                  · rename_i hx; subst hx; exact h2
                  · exact h2
                · intro _; simpa [State.setCoro] using h3
                · simp only [hrun, if_false, h1, h2, h3, if_true]; rfl
            · exact nil (by simp only [hrun, if_false, h1, h2]; rfl)
    | drops os =>
      cases os with
      | nil => exact nil (by simp [run, hst, State.pop])
      | cons o os =>
        by_cases h : (s.pop.push (.drops os)).usable true o = true
        · apply hquiet
          have : run P s = dropObj (s.pop.push (.drops os)) o := by simp [run, hst, h]
          rw [this]; exact dob _ _
        · exact nil (by simp [run, hst, h]; rfl)
    | assign dst src =>
      refine nil ?_
      simp only [run, hst]; split <;> rfl
    | waitA w tmp =>
      by_cases h : (s.pop.push (.waitB w)).usable true tmp = true
      · apply hquiet
        have : run P s = dropObj (s.pop.push (.waitB w)) tmp := by simp [run, hst, h]
        rw [this]; exact dob _ _
      · exact nil (by simp [run, hst, h]; rfl)
    | waitB w =>
      apply hquiet
      simp only [run, hst]; split
      · exact wr w
      · exact ⟨[.loopEnter w], rfl, by simp [evQ]⟩
    | loop w =>
      apply hquiet
      simp only [run, hst]; split
      · exact wr w
      · exact ⟨[], by simp⟩

theorem snoc_induction {α : Type} {C : List α → Prop} (h0 : C []) (h1 : ∀ l x, C l → C (l ++ [x])) (l : List α) : C l := by
  rw [← List.reverse_reverse l]
  generalize l.reverse = r
  induction r with
  | nil => exact h0
  | cons x r ih => rw [List.reverse_cons]; exact h1 _ _ ih

theorem step_run_body {P : Prog σ V E} {s : State σ V E} {c st code} (hu : s.ub = none) (hs : s.stack = .body c :: st)
    (hf : (s.coro c).freed = false) (hc : (s.coro c).code = some code) :
    step P s .run = doAct P (actState P s c code) c (codeNext P (s.coro c).owned code (s.coro c).inp).2 := by
  have h1 : step P s .run = run P s := by simp [step, hu]
  rw [h1]; unfold run; rw [hs]; dsimp only; rw [if_neg (by simp [hf]), hc]; rfl

inductive StepCase (P : Prog σ V E) (s : State σ V E) (op : Op σ V E) : Prop
  | quiet (evs) (h : (step P s op).log = s.log ++ evs) (hq : ∀ e ∈ evs, evQ e)
  | await (c st code o priv) (hop : op = .run) (hst : s.stack = .body c :: st) (hf : (s.coro c).freed = false) (hc : (s.coro c).code = some code)
      (ha : (codeNext P (s.coro c).owned code (s.coro c).inp).2 = if priv then .awaitTmp o else .u (.await o))
      (h : step P s op = awaitObj P (actState P s c code) c o priv)
  | woken (c st a rest r) (hop : op = .run) (hst : s.stack = .final c :: st) (hf : (s.coro c).freed = false) (hfin : (s.coro c).fin = a :: rest)
      (ha : (s.coro a).status = .waitTask c) (hac : a ≠ c → (s.coro c).result = some r) (h : step P s op = wokenState P s c a rest r)

theorem step_cases (P : Prog σ V E) (s : State σ V E) (op) : StepCase P s op := by
  by_cases hu : s.ub.isSome = true
  · exact .quiet [] (by simp [step, hu]) (by simp)
  · cases op with
    | run =>
      have hr : step P s .run = run P s := by simp [step, hu]
      cases run_cases P s with
      | quiet evs h hq => exact .quiet evs (by rw [hr]; exact h) hq
      | await c st code o priv a b c' d h => exact .await c st code o priv rfl a b c' d (by rw [hr]; exact h)
      | woken c st x rest r a b c' d e h => exact .woken c st x rest r rfl a b c' d e (by rw [hr]; exact h)
    | main a =>
      have hr : step P s (.main a) = if s.mayAct then doUser P s none a else s := by simp [step, hu]
      by_cases hl : s.mayAct = true
      · by_cases hna : ∀ o, a ≠ .await o
        · obtain ⟨e, h, h2⟩ := (eff2_doUser P s none a hna).log
          exact .quiet e (by rw [hr]; simpa [hl] using h) (fun e he => (h2 e he).q)
        · simp only [Classical.not_forall, Classical.not_not] at hna
          obtain ⟨o, rfl⟩ := hna
          exact .quiet [] (by rw [hr]; simp [hl, doUser]) (by simp)
      · exact .quiet [] (by rw [hr]; simp [hl]) (by simp)
    | fire c r =>
      by_cases hx : (s.mayAct && (s.coro c).status = .waitExt) = true
      · exact .quiet [.extRes c r] (by simp only [step, hu]; simp [hx]; rfl) (by simp [evQ])
      · exact .quiet [] (by simp only [step, hu]; simp [hx]) (by simp)
    | exitLoop w =>
      by_cases hx : (s.mayAct && s.stack.contains (.loop w)) = true
      · exact .quiet [.extExit w] (by simp only [step, hu, hx, if_true, Bool.false_eq_true, if_false]; rfl) (by simp [evQ])
      · exact .quiet [] (by simp only [step, hu, hx, Bool.false_eq_true, if_false]; simp) (by simp)

theorem regs_quiet {d : Nat} {l evs : List (Ev V E)} (h : ∀ e ∈ evs, evQ e) : regs d (l ++ evs) = regs d l := by
  simp only [regs, List.filterMap_append]
  conv => rhs; rw [← List.append_nil (List.filterMap _ l)]
  congr 1
  rw [List.filterMap_eq_nil_iff]
  intro e he; have := h e he
  cases e <;> simp_all [evQ]

/-- A coroutine that has not started has never been awaited. -/
theorem exec_initial_regs (P : Prog σ V E) (ops) : ∀ c, ((exec P ops).coro c).status = .initial → regs c (exec P ops).log = [] := by
  refine (exec_induction (P := P) (I := fun s => LInv P s ∧ ∀ c, (s.coro c).status = .initial → regs c s.log = []) ⟨linv_init P, by simp [init]⟩ ?_ ops).1.2
  rintro s op hI hu ⟨hL, h⟩
  refine ⟨step_L P op hI hu hL, ?_⟩
  have hL' := step_L P op hI hu hL
  have hlog := step_log P s op
  have hco := hI.i2.i1.core
  intro c hc
  have hprev : (s.coro c).status = .initial ∨ (s.coro c).status = .unborn := by
    obtain ⟨evs, hl⟩ := hlog
    rw [← hL'.life, hl] at hc
    have h1 := hL'.ok
    rw [hl] at h1
    by_cases hub : life c s.log = .unborn
    · right; rw [← hL.life]; exact hub
    · left
      rw [← hL.life]
      apply Classical.byContradiction
      intro hx
      exact life_started_stays h1 hub hx hc
  have hregs : regs c s.log = [] := by
    rcases hprev with hp | hp
    · exact h c hp
    · have h1 := hL.rg c
      have hge : s.nc ≤ c := Nat.le_of_not_lt fun hlt => hco.born c hlt hp
      rw [hco.corB c hge] at h1
      cases hx : regs c s.log with
      | nil => rfl
      | cons x xs =>
        have h2 : Ev.awaitReg x c ∈ s.log := by
          have : x ∈ regs c s.log := by rw [hx]; simp
          simp only [regs, List.mem_filterMap] at this
          obtain ⟨e, he, h3⟩ := this
          cases e <;> simp at h3
          obtain ⟨rfl, rfl⟩ := h3
          exact he
        obtain ⟨pre, post, h3, h4⟩ := hL.ok.mem h2
        have h5 := hL.ok
        rw [h3] at h5
        have := life_unborn_stays_le h5 h4.2.1
        rw [← h3, hL.life] at this
        exact absurd hp this
  cases step_cases P s op with
  | quiet evs h hq => rw [h, regs_quiet hq]; exact hregs
  | await c' st code o priv hop hst hf hcode _ h =>
    have hrun : (s.coro c').status = .running := (hco.bodyR c').1 (by simp [bodies, hst])
    rw [h] at hc ⊢
    rcases awaitObj_cases P (actState P s c' code) c' o priv with ⟨u, h⟩ | ⟨_, _, _, h⟩ | ⟨d, _, hd, _, ⟨r, _, _, h⟩ | ⟨hnd, hk, h⟩ | ⟨hi, _, h⟩⟩ <;> rw [h] at hc ⊢
    · exact hregs
    · rw [hungState_log, regs_snoc]; simp [hregs, actState, State.setCoro]
    · rw [readyState_log, regs_snoc]; simp [hregs, actState, State.setCoro]
    · rw [regState_log, regs_snoc]
      have hne : d ≠ c := by
        rintro rfl
        have h1 := (hco.hOk o d hd).2.2
        have hk' : (s.obj o).kind = .eager := hk
        rcases hprev with hp | hp
        · have := hco.initL d hp; rw [h1, hk'] at this; simp at this
        · exact hco.born d (hco.hOk o d hd).1 hp
      simp [hne, hregs, actState, State.setCoro]
    · rw [lazyState_log]
      have hne : d ≠ c := by
        rintro rfl
        simp only [lazyState, State.push, State.emit, State.pop, State.setCoro] at hc
        split at hc
        · simp at hc
        · simp at hc
      have : (actState P s c' code).log ++ [Ev.awaitReg c' d, .started d] = ((actState P s c' code).log ++ [Ev.awaitReg c' d]) ++ [.started d] := by simp
      rw [this, regs_snoc, regs_snoc]
      simp [hne, hregs, actState, State.setCoro]
  | woken c' st a rest r hop hst hf hfin ha hac h =>
    rw [h]
    have : (wokenState P s c' a rest r).log = s.log ++ [.gotWoken a c' r] := rfl
    rw [this, regs_snoc]; simp [hregs]

end QCoro.Task
