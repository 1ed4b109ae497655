import Verif.Task.Steps

/-! Which steps emit the events of continuations (callback called, error callback called, context gone, …) and of
`waitFor`. -/
namespace QCoro.Task
variable {σ V E : Type}

/-- Events only library code emits. -/
def evL : Ev V E → Bool
  | .cb _ _ | .err _ _ | .guardDead _ | .cbTask _ _ => true
  | _ => false

/-- … and events of `waitFor` -/
def evW : Ev V E → Bool
  | .loopEnter _ | .waitRet _ _ | .extExit _ => true
  | _ => false

theorem evOK.l {who} {e : Ev V E} (h : evOK who e) : evL e = false ∧ evW e = false := by cases e <;> simp_all [evOK, evL, evW]

def actL : Act σ V E → Bool
  | .markCb _ | .markErr _ | .ctxAlive _ _ | .callTmp _ _ _ => true
  | _ => false

def NoL (l l' : List (Ev V E)) : Prop := ∃ evs, l' = l ++ evs ∧ ∀ e ∈ evs, evL e = false ∧ evW e = false

theorem NoL.refl (l : List (Ev V E)) : NoL l l := ⟨[], by simp, by simp⟩
theorem NoL.one {l : List (Ev V E)} {e} (h : evL e = false ∧ evW e = false) : NoL l (l ++ [e]) := ⟨[e], rfl, by simpa using h⟩

theorem deref_NoL (s : State σ V E) (c) : NoL s.log (deref s c).log := by
  obtain ⟨e, h, h2⟩ := (eff2_deref s c none).log; exact ⟨e, h, fun e he => (h2 e he).l⟩
theorem dropObj_NoL (s : State σ V E) (o) : NoL s.log (dropObj s o).log := by
  unfold dropObj; split
  · exact NoL.refl _
  · exact deref_NoL _ _
theorem awaitObj_NoL (P : Prog σ V E) (s : State σ V E) (a o priv) : NoL s.log (awaitObj P s a o priv).log := by
  rcases awaitObj_cases P s a o priv with ⟨u, h⟩ | ⟨_, _, _, h⟩ | ⟨d, _, _, _, ⟨r, _, _, h⟩ | ⟨_, _, h⟩ | ⟨_, _, h⟩⟩ <;> rw [h]
  · exact NoL.refl _
  · exact ⟨_, hungState_log _ _, by simp [evL, evW]⟩
  · exact ⟨_, readyState_log _ _ _ _ _, by simp [evL, evW]⟩
  · exact ⟨_, regState_log _ _ _, by simp [evL, evW]⟩
  · exact ⟨_, lazyState_log _ _ _, by simp [evL, evW]⟩
theorem doUser_NoL (P : Prog σ V E) (s : State σ V E) (who a) : NoL s.log (doUser P s who a).log := by
  by_cases hna : ∀ o, a ≠ .await o
  · obtain ⟨e, h, h2⟩ := (eff2_doUser P s who a hna).log; exact ⟨e, h, fun e he => (h2 e he).l⟩
  · simp only [Classical.not_forall, Classical.not_not] at hna
    obtain ⟨o, rfl⟩ := hna
    cases who with
    | none => exact NoL.refl _
    | some c => exact awaitObj_NoL _ _ _ _ _
theorem doAct_NoL (P : Prog σ V E) (s : State σ V E) (c) (a : Act σ V E) (h : actL a = false) : NoL s.log (doAct P s c a).log := by
  cases a <;> simp [actL] at h
  · exact doUser_NoL _ _ _ _
  · simp only [doAct]; split <;> exact NoL.refl _
  · exact awaitObj_NoL _ _ _ _ _
  · simp only [doAct]; split
    · exact dropObj_NoL _ _
    · exact NoL.refl _
  · exact NoL.refl _

inductive LibCase (P : Prog σ V E) (s : State σ V E) (op : Op σ V E) : Prop
  | quiet (h : NoL s.log (step P s op).log)
  | act (c st code) (hop : op = .run) (hst : s.stack = .body c :: st) (hf : (s.coro c).freed = false) (hc : (s.coro c).code = some code)
      (ha : actL (codeNext P (s.coro c).owned code (s.coro c).inp).2 = true)
      (h : step P s op = doAct P (actState P s c code) c (codeNext P (s.coro c).owned code (s.coro c).inp).2)
  | enter (w st) (hop : op = .run) (hst : s.stack = .waitB w :: st) (hn : (s.wctx w).fin = none)
      (h : step P s op = (s.pop.push (.loop w)).emit (.loopEnter w))
  | ret (w st) (hop : op = .run) (hst : (s.stack = .waitB w :: st ∧ (s.wctx w).fin.isSome = true) ∨ (s.stack = .loop w :: st ∧ (s.wctx w).exit = true))
      (h : step P s op = waitReturn P s w)
  | exit (w) (hop : op = .exitLoop w) (hl : s.mayAct = true) (hm : .loop w ∈ s.stack)
      (h : step P s op = (s.setW w { s.wctx w with exit := true }).emit (.extExit w))

theorem lib_cases (P : Prog σ V E) (s : State σ V E) (op) : LibCase P s op := by
  by_cases hu : s.ub = none
  · cases op with
    | main a =>
      have hr : step P s (.main a) = if s.mayAct then doUser P s none a else s := by simp [step, hu]
      refine .quiet ?_
      rw [hr]; split
      · exact doUser_NoL _ _ _ _
      · exact NoL.refl _
    | fire c r =>
      refine .quiet ?_
      simp only [step, hu, Option.isSome_none, Bool.false_eq_true, if_false]; split
      · exact NoL.one (by simp [evL, evW])
      · exact NoL.refl _
    | exitLoop w =>
      have hr : step P s (.exitLoop w) = if s.mayAct && s.stack.contains (.loop w) then (s.setW w { s.wctx w with exit := true }).emit (.extExit w) else s := by
        simp [step, hu]
      by_cases hx : (s.mayAct && s.stack.contains (.loop w)) = true
      · simp at hx
        exact .exit w rfl hx.1 hx.2 (by rw [hr]; simp [hx])
      · exact .quiet (by rw [hr, if_neg hx]; exact NoL.refl _)
    | run =>
      have hr : step P s .run = run P s := by simp [step, hu]
      cases hst : s.stack with
      | nil => exact .quiet (by rw [hr]; simp only [run, hst]; exact NoL.refl _)
      | cons f st =>
        cases f with
        | body c =>
          cases hf : (s.coro c).freed with
          | true => exact .quiet (by rw [hr]; simp only [run, hst, hf, if_true]; exact NoL.refl _)
          | false =>
            cases hcode : (s.coro c).code with
            | none => exact .quiet (by rw [hr]; simp only [run, hst, hf, hcode]; exact NoL.refl _)
            | some code =>
              have h := step_run_body (P := P) hu hst hf hcode
              cases ha : actL (codeNext P (s.coro c).owned code (s.coro c).inp).2 with
              | true => exact .act c st code rfl hst hf hcode ha h
              | false => exact .quiet (by rw [h]; exact doAct_NoL _ _ _ _ ha)
        | final c =>
          refine .quiet ?_
          cases run_cases P s with
          | quiet evs h hq =>
            rw [hr]; simp only [run, hst]
            split
            · exact NoL.refl _
            · split
              · split
                · exact NoL.refl _
                · split
                  · split
                    · exact NoL.refl _
                    · exact NoL.one (by simp [evL, evW])
                  · exact NoL.refl _
              · exact deref_NoL _ _
          | await c' st' code o priv hst' => rw [hst] at hst'; simp at hst'
          | woken c' st' a rest r _ _ _ _ _ h => rw [hr, h]; exact NoL.one (by simp [evL, evW])
        | drops os =>
          refine .quiet ?_
          cases os with
          | nil => rw [hr]; simp only [run, hst]; exact NoL.refl _
          | cons o os =>
            rw [hr]; simp only [run, hst]; split
            · exact dropObj_NoL _ _
            · exact NoL.refl _
        | assign dst src =>
          refine .quiet ?_
          rw [hr]; simp only [run, hst]; split <;> exact NoL.refl _
        | waitA w tmp =>
          refine .quiet ?_
          rw [hr]; simp only [run, hst]; split
          · exact dropObj_NoL _ _
          · exact NoL.refl _
        | waitB w =>
          cases hx : (s.wctx w).fin with
          | some r => exact .ret w st rfl (.inl ⟨hst, by simp [hx]⟩) (by rw [hr]; simp [run, hst, hx])
          | none => exact .enter w st rfl hst hx (by rw [hr]; simp [run, hst, hx])
        | loop w =>
          cases hx : (s.wctx w).exit with
          | true => exact .ret w st rfl (.inr ⟨hst, hx⟩) (by rw [hr]; simp [run, hst, hx])
          | false => exact .quiet (by rw [hr]; simp only [run, hst, hx]; exact NoL.refl _)
  · exact .quiet (by
      have : s.ub.isSome = true := by cases h : s.ub <;> simp_all
      simp only [step, this, if_true]; exact NoL.refl _)

theorem Chk.noL {ok : List (Ev V E) → Ev V E → Prop} {l l'} (h : Chk ok l) (hn : NoL l l') (hok : ∀ pre e, evL e = false → evW e = false → ok pre e) :
    Chk ok l' := by
  obtain ⟨evs, rfl, he⟩ := hn
  induction evs using snoc_induction with
  | h0 => simpa using h
  | h1 l2 x ih =>
    rw [← List.append_assoc]
    refine (ih fun e hm => he e (by simp [hm])).snoc ?_
    have := he x (by simp)
    exact hok _ _ this.1 this.2

end QCoro.Task
