import Verif.Task.WaitQuit

/-! C13: `waitFor` of an awaitable that is ready. -/
namespace QCoro.Task
variable {σ V E : Type}

/-- The helper coroutine of the call is about to be entered, or the awaitable has given `y`. -/
def Now (w r : Nat) (y : Res V E) (s : State σ V E) : Prop :=
  ((s.coro r).code = some (.waitRun w (.ext (some y)) .init) ∧ ∃ st, s.stack = .body r :: st) ∨ .extRes r y ∈ s.log

theorem now_step {P : Prog σ V E} {who w r y h b} {s : State σ V E} (hN : Now w r y s) (hT : WT P who w r (.ext (some y)) h b s) (hI : Inv s) (hu : s.ub = none) (op) :
    Now w r y (step P s op) := by
  rcases hN with ⟨hc, st, hst⟩ | hN
  · have hco := hI.i2.i1.core
    by_cases hop : op = .run
    · subst hop
      have hrun : (s.coro r).status = .running := (hco.bodyR r).1 (by simp [hst])
      have hf : (s.coro r).freed = false := hco.notFreed hT.lt (by rw [hrun]; simp)
      right
      rw [step_run_body (P := P) hu hst hf hc]
      simp only [codeNext, waitNext, waitAct, doAct, doUser]
      simp [State.reply, State.setCoro, State.emit]
    · rw [step_busy P hst hc rfl hop]; exact .inl ⟨hc, st, hst⟩
  · exact .inr (step_log_mono P s op hN)

theorem now_exec {P : Prog σ V E} {ops op ops' who y b} (hp : Performs P (exec P ops) op who (.waitFor (.ext (some y)) b))
    (hu : (exec P (ops ++ [op] ++ ops')).ub = none) :
    WT P who (exec P ops).nw (exec P ops).nc (.ext (some y)) .ext b (exec P (ops ++ [op] ++ ops')) ∧ Now (exec P ops).nw (exec P ops).nc y (exec P (ops ++ [op] ++ ops')) ∧
    .loopEnter (exec P ops).nw ∉ (exec P (ops ++ [op] ++ ops')).log ∧
    ∀ x, .waitRet (exec P ops).nw x ∈ (exec P (ops ++ [op] ++ ops')).log → x = y := by
  induction ops' using QCoro.snocInd with
  | nil =>
    rw [List.append_nil] at hu ⊢
    have hT := performs_WT hp hu
    have hle := (exec_fresh P ops (exec_ub_prefix _ _ hu) _ (Nat.le_refl _)).1
    have hre := (exec_fresh P ops (exec_ub_prefix _ _ hu) _ (Nat.le_refl _)).2.2
    refine ⟨hT, .inl ?_, ?_, ?_⟩
    · obtain ⟨s1, hs, hl, ho, hnc, hno, hstk, hnw, hwc, hWC⟩ := hp.stepW (exec P ops).nw
      rw [exec_snoc, hs]
      simp only [doUser]
      rw [if_pos (by rfl)]
      simp [spawn, State.push, State.emit, State.setCoro, State.setObj, State.setW, hnc, hnw]
    · rw [exec_snoc]
      intro hc
      obtain ⟨s1, hs, hl, ho, hnc, hno, hstk, hnw, hwc, hWC⟩ := hp.stepW (exec P ops).nw
      rw [hs] at hc
      simp only [doUser] at hc
      rw [if_pos (by rfl)] at hc
      simp [spawn, State.push, State.emit, State.setCoro, State.setObj, State.setW, hl] at hc
      exact hle hc
    · rw [exec_snoc]
      intro x hc
      obtain ⟨s1, hs, hl, ho, hnc, hno, hstk, hnw, hwc, hWC⟩ := hp.stepW (exec P ops).nw
      rw [hs] at hc
      simp only [doUser] at hc
      rw [if_pos (by rfl)] at hc
      simp [spawn, State.push, State.emit, State.setCoro, State.setObj, State.setW, hl] at hc
      exact absurd hc (hre x)
  | snoc l o ih =>
    rw [← List.append_assoc] at hu ⊢
    have hul := exec_ub_prefix _ [o] hu
    obtain ⟨hT, hN, hle, hre⟩ := ih hul
    have hI := exec_inv P _ hul
    have hL := exec_linv P (ops ++ [op] ++ l)
    have hT' := WT_exec hT [o] hu
    rw [exec_snoc] at hu hT' ⊢
    refine ⟨hT', now_step hN hT hI hul o, ?_⟩
    have hL' := step_L P o hI hul hL
    generalize exec P (ops ++ [op] ++ l) = s at *
    generalize (exec P ops).nw = w at *
    generalize (exec P ops).nc = r at *
    have hready : (∃ f st, s.stack = f :: st ∧ wOf f = some w) → .extRes r y ∈ s.log := by
      rintro ⟨f, st, h1, h2⟩
      rcases hN with ⟨_, st', h⟩ | h
      · rw [h1] at h; cases h; simp [wOf] at h2
      · exact h
    cases ev_cases P s o with
    | quiet hn =>
      obtain ⟨evs, g1, g2⟩ := hn
      rw [g1]
      constructor
      · intro hc
        rcases List.mem_append.1 hc with h | h
        · exact hle h
        · have := g2 _ h; simp [evW] at this
      · intro x hc
        rcases List.mem_append.1 hc with h | h
        · exact hre x h
        · have := g2 _ h; simp [evW] at this
    | enter w' st hop hst hn he =>
      have hw : w' ≠ w := by
        rintro rfl
        exact idle_open hL.ok (hT.idle hI hL ⟨_, _, hst, rfl⟩ hn) (.inr ⟨y, rfl, hready ⟨_, _, hst, rfl⟩⟩)
      rw [he]; simp [State.emit, State.push, State.pop, Ne.symm hw]; exact ⟨hle, hre⟩
    | exit w' hop hx he => rw [he]; simp [State.emit, State.setW]; exact ⟨hle, hre⟩
    | ret w' st x hop hst hx he =>
      have h3 : (step P s o).log = s.log ++ [.waitRet w' x] := by
        rw [he]; show (State.reply _ _ _).log ++ _ = _; rw [reply_log]; rfl
      have hok := hT'.ok s.log (.waitRet w' x) [] h3
      rw [h3]
      refine ⟨by simpa using hle, fun z hz => ?_⟩
      simp at hz
      rcases hz with hz | ⟨rfl, rfl⟩
      · exact hre z hz
      · have hr : .extRes r y ∈ s.log := hready (by rcases hst with ⟨h, _⟩ | ⟨h, _⟩ <;> exact ⟨_, _, h, rfl⟩)
        rcases (hok rfl).2 with ⟨p, q, ⟨d, h, _⟩ | ⟨_, h⟩, h2⟩ | ⟨_, _, _, h⟩
        · cases h
        · exact hT.ext_once (ext_mem.1 (by rw [h2, h]; simp)) hr
        · exact absurd (.inr ⟨y, rfl, hr⟩) (idle_open hL.ok h)

/-- C13. `waitFor` of an awaitable that is ready with `y` never enters an event loop, whatever the schedule, and returns nothing but `y`. -/
theorem C13_ready_awaitable {P : Prog σ V E} {ops op ops' who y b} (hp : Performs P (exec P ops) op who (.waitFor (.ext (some y)) b))
    (hu : (exec P (ops ++ op :: ops')).ub = none) :
    .loopEnter (exec P ops).nw ∉ (exec P (ops ++ op :: ops')).log ∧ ∀ x, .waitRet (exec P ops).nw x ∈ (exec P (ops ++ op :: ops')).log → x = y := by
  have hs : ops ++ op :: ops' = ops ++ [op] ++ ops' := by simp
  rw [hs] at hu ⊢
  exact (now_exec hp hu).2.2

end QCoro.Task
