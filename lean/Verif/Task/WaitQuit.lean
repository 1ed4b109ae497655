import Verif.Task.WaitProps

/-! C14, the converse: what an outside quit of the loop of an unfinished `waitFor` always leads to. -/
namespace QCoro.Task
variable {σ V E : Type}

/-- Nothing is stored in the context of a call while what it waits for is not complete. -/
theorem WT.fin_none {P : Prog σ V E} {who w r oo h b} {s : State σ V E} (hT : WT P who w r oo h b s) (hL : LInv P s)
    (hn : ¬ Completed h r s.log) : (s.wctx w).fin = none := by
  obtain ⟨ph, _, hat, _⟩ := hT.at'
  have key : ∀ x p q, GotA h x p → hist r s.log = p ++ q → False := by
    rintro x p q (⟨d, hd, hg⟩ | ⟨hd, hg⟩) hh
    · obtain ⟨r0, _, h4, _⟩ := wait_got hL.ok hg hh
      exact hn (.inl ⟨d, r0, hd, h4⟩)
    · exact hn (.inr ⟨x, hd, ext_mem.1 (by rw [hh, hg]; simp)⟩)
  cases ph with
  | init => exact hat.2.2
  | waiting => exact hat.1
  | signalled => obtain ⟨x, hg, _⟩ := hat; exact (key x _ [] hg (by simp)).elim
  | over => obtain ⟨_, x, p, hg, hh, _⟩ := hat; exact (key x p _ hg hh).elim

/-- C14. The loop of a `waitFor(Task<T>)` was quit from outside and the task is unfinished when control is back in the call:
it dereferences the empty result. -/
theorem C14_quit_value_ub {P : Prog σ V E} {ops op ops' who w r h} (hm : Waits P (exec P ops) op who w r h false)
    (hu : (exec P (ops ++ op :: ops')).ub = none) {st} (hst : (exec P (ops ++ op :: ops')).stack = .loop w :: st)
    (hx : .extExit w ∈ (exec P (ops ++ op :: ops')).log) (hn : ¬ Completed h r (exec P (ops ++ op :: ops')).log) :
    (exec P (ops ++ op :: ops' ++ [.run])).ub = some .waitNoResult := by
  obtain ⟨oo, hT⟩ := waits_exec hm hu
  have hL := exec_linv P (ops ++ op :: ops')
  have hf := hT.fin_none hL hn
  rw [exec_snoc]
  generalize exec P (ops ++ op :: ops') = s at *
  have hex := hT.ex.2 (.inr hx)
  have hr : step P s .run = run P s := by simp [step, hu]
  rw [hr]; unfold run; rw [hst]; dsimp only; rw [if_pos hex]
  unfold waitReturn; dsimp only; rw [hf]; dsimp only; rw [if_neg (by rw [hT.vd]; simp)]
  rfl

/-- C14. The same for a `waitFor(Task<void>)`: it returns early … -/
theorem C14_quit_void_returns {P : Prog σ V E} {ops op ops' who w r h} (hm : Waits P (exec P ops) op who w r h true)
    (hu : (exec P (ops ++ op :: ops')).ub = none) {st} (hst : (exec P (ops ++ op :: ops')).stack = .loop w :: st)
    (hx : .extExit w ∈ (exec P (ops ++ op :: ops')).log) (hn : ¬ Completed h r (exec P (ops ++ op :: ops')).log) :
    (exec P (ops ++ op :: ops' ++ [.run])).log = (exec P (ops ++ op :: ops')).log ++ [.waitRet w (.val P.dflt)] ∧
    (exec P (ops ++ op :: ops' ++ [.run])).stack = st ∧ (exec P (ops ++ op :: ops' ++ [.run])).ub = none := by
  obtain ⟨oo, hT⟩ := waits_exec hm hu
  have hL := exec_linv P (ops ++ op :: ops')
  have hf := hT.fin_none hL hn
  rw [exec_snoc]
  generalize exec P (ops ++ op :: ops') = s at *
  have hex := hT.ex.2 (.inr hx)
  have hr : step P s .run = (((s.setW w { s.wctx w with alive := false }).pop).reply (s.wctx w).caller (.res (.val P.dflt))).emit (.waitRet w (.val P.dflt)) := by
    have hr : step P s .run = run P s := by simp [step, hu]
    rw [hr]; unfold run; rw [hst]; dsimp only; rw [if_pos hex]
    unfold waitReturn; dsimp only; rw [hf]; dsimp only; rw [if_pos hT.vd]
  rw [hr]
  refine ⟨?_, ?_, ?_⟩
  · show (State.reply _ _ _).log ++ _ = _; rw [reply_log]; rfl
  · simp [State.emit, State.pop, State.setW, hst]
  · show (State.reply _ _ _).ub = _; rw [reply_ub]; exact hu

/-- If something is stored in the context of a call that returned, the task was finished when it returned. -/
def LateOk (w r : Nat) (h : Aim) (s : State σ V E) : Prop :=
  (s.wctx w).alive = false → (s.wctx w).fin ≠ none →
    ∃ pre x post, s.log = pre ++ .waitRet w x :: post ∧ Completed h r pre

theorem late_step {P : Prog σ V E} {who w r oo h b} {s : State σ V E} (hE : LateOk w r h s) (hT : WT P who w r oo h b s) (hL : LInv P s) (hu : s.ub = none) (op)
    (hu' : (step P s op).ub = none) : LateOk w r h (step P s op) := by
  obtain ⟨evs, hlog⟩ := step_log P s op
  have keep : (∃ pre x post, s.log = pre ++ .waitRet w x :: post ∧ Completed h r pre) →
      ∃ pre x post, (step P s op).log = pre ++ .waitRet w x :: post ∧ Completed h r pre := by
    rintro ⟨pre, x, post, h1, h2⟩
    exact ⟨pre, x, post ++ evs, by rw [hlog, h1]; simp, h2⟩
  intro ha hf
  cases wstep P op hu hu' (.inl hT.wlt) with
  | same cx => rw [cx] at ha hf; exact keep (hE ha hf)
  | done c st code x hop hst hf' hc hact hal he =>
    rw [he] at ha; simp [State.reply, State.setCoro, State.setW, hal] at ha
  | exit hop hm he =>
    rw [he] at ha hf
    exact keep (hE (by simpa [State.emit, State.setW] using ha) (by simpa [State.emit, State.setW] using hf))
  | ret f st x hop hst hfr hx he =>
    have hf0 : (s.wctx w).fin ≠ none := by rw [he] at hf; simpa [State.emit, State.setW, State.pop] using hf
    refine ⟨s.log, x, [], ?_, ?_⟩
    · rw [he]; show (State.reply _ _ _).log ++ _ = _; rw [reply_log]; rfl
    · by_cases hd : Completed h r s.log
      · exact hd
      · exact absurd (hT.fin_none hL hd) hf0

theorem waits_late {P : Prog σ V E} {ops op ops' who w r h b} (hm : Waits P (exec P ops) op who w r h b) (hu : (exec P (ops ++ op :: ops')).ub = none) :
    LateOk w r h (exec P (ops ++ op :: ops')) := by
  induction ops' using QCoro.snocInd with
  | nil =>
    obtain ⟨oo, hT⟩ := waits_exec hm hu
    intro ha hf
    exfalso
    obtain ⟨ph, hc, hat, hini⟩ := hT.at'
    obtain ⟨y, hy⟩ := hT.rt.2 ha
    have hul : (exec P ops).ub = none := exec_ub_prefix _ [op] hu
    rw [exec_snoc] at hy
    cases hm with
    | mk who o h2 =>
      have hd := (exec_fresh P ops hul _ (Nat.le_refl _)).2.2 y
      cases ev_cases P (exec P ops) op with
      | quiet hn =>
        obtain ⟨ev2, g1, g2⟩ := hn
        rw [g1] at hy
        rcases List.mem_append.1 hy with h | h
        · exact hd h
        · have := g2 _ h; simp [evW] at this
      | enter w' st hop hst hn he =>
        rw [he] at hy; simp [State.emit, State.push, State.pop] at hy; exact hd hy
      | exit w' hop hm he => rw [he] at hy; simp [State.emit, State.setW] at hy; exact hd hy
      | ret w' st y' hop hst hx he =>
        have h4 : (step P (exec P ops) op).log = (exec P ops).log ++ [.waitRet w' y'] := by
          rw [he]; show (State.reply _ _ _).log ++ _ = _; rw [reply_log]; rfl
        rw [h4] at hy
        simp at hy
        rcases hy with h | ⟨h, _⟩
        · exact hd h
        · have hI := exec_inv P ops hul
          have h5 := hI.i2.w.swf
          have : w' < (exec P ops).nw := by
            rcases hst with ⟨hst, _⟩ | ⟨hst, _⟩ <;> rw [hst] at h5 <;> exact (h5.1 w' rfl).1
          omega
  | snoc l x ih =>
    have e : ops ++ op :: (l ++ [x]) = (ops ++ op :: l) ++ [x] := by simp
    rw [e] at hu ⊢
    have hul : (exec P (ops ++ op :: l)).ub = none := exec_ub_prefix _ [x] hu
    obtain ⟨oo, hT⟩ := waits_exec hm hul
    rw [exec_snoc] at hu ⊢
    exact late_step (ih hul) hT (exec_linv P _) hul x hu

theorem split_eq {α} {p : α → Prop} : ∀ {a b a' b' : List α} {x x'}, a ++ x :: b = a' ++ x' :: b' → p x → p x' → (∀ y ∈ a, ¬ p y) → (∀ y ∈ a', ¬ p y) → a = a' := by
  intro a
  induction a with
  | nil =>
    intro b a' b' x x' h hx _ _ ha'
    cases a' with
    | nil => rfl
    | cons y a' => simp at h; exact absurd hx (by rw [h.1]; exact ha' y (by simp))
  | cons z a ih =>
    intro b a' b' x x' h hx hx' ha ha'
    cases a' with
    | nil => simp at h; exact absurd hx' (by rw [← h.1]; exact ha z (by simp))
    | cons y a' =>
      simp at h
      rw [h.1, ih h.2 hx hx' (fun y hy => ha y (by simp [hy])) (fun y hy => ha' y (by simp [hy]))]

/-- C14. … and when the task it did not wait for completes after all and the helper coroutine gets control, that writes into the
`WaitContext` that no longer exists. -/
theorem C14_quit_void_later_ub {P : Prog σ V E} {ops op ops' who w r h b} (hm : Waits P (exec P ops) op who w r h b)
    (hu : (exec P (ops ++ op :: ops')).ub = none) {pre x post} (hl : (exec P (ops ++ op :: ops')).log = pre ++ .waitRet w x :: post)
    (hn : ¬ Completed h r pre) {st} (hst : (exec P (ops ++ op :: ops')).stack = .body r :: st) :
    (exec P (ops ++ op :: ops' ++ [.run])).ub = some .waitCtxDead := by
  obtain ⟨oo, hT⟩ := waits_exec hm hu
  have hla := waits_late hm hu
  have hco := (exec_inv P _ hu).i2.i1.core
  have hswf := (exec_inv P _ hu).i2.w.swf
  have hone : ∀ {pre x post}, (exec P (ops ++ op :: ops')).log = pre ++ .waitRet w x :: post → ∀ y, .waitRet w y ∉ pre := fun hl y => (C13_returns_at_most_once hm hu hl y).1
  rw [exec_snoc]
  generalize exec P (ops ++ op :: ops') = s at *
  have ha : (s.wctx w).alive = false := hT.rt.1 ⟨x, by rw [hl]; simp⟩
  have hfin : (s.wctx w).fin = none := by
    cases hf : (s.wctx w).fin with
    | none => rfl
    | some v =>
      exfalso
      obtain ⟨pre', x', post', hl', hc⟩ := hla ha (by rw [hf]; simp)
      have : pre = pre' := by
        refine split_eq (p := fun e => ∃ y, e = .waitRet w y) (hl.symm.trans hl') ⟨_, rfl⟩ ⟨_, rfl⟩ ?_ ?_
        · rintro e he ⟨y, rfl⟩; exact hone hl y he
        · rintro e he ⟨y, rfl⟩; exact hone hl' y he
      subst this
      exact hn hc
  have hrun : (s.coro r).status = .running := (hco.bodyR r).1 (by simp [hst])
  have hf : (s.coro r).freed = false := hco.notFreed hT.lt (by rw [hrun]; simp)
  obtain ⟨ph, hcode, hat, hini⟩ := hT.at'
  cases ph with
  | signalled => obtain ⟨_, _, _, h⟩ := hat; rw [hfin] at h; simp at h
  | over => obtain ⟨_, _, _, _, _, h⟩ := hat; rw [hfin] at h; simp at h
  | init =>
    -- the call cannot have returned before its helper coroutine was entered
    exfalso
    obtain ⟨⟨st', tmp, h1⟩, _⟩ := hini rfl
    rw [h1] at hswf
    rw [(hswf.2.1 w rfl).2.1] at ha; simp at ha
  | waiting =>
    obtain ⟨_, ⟨_, h, _⟩ | ⟨d, _, _, h⟩ | ⟨v, hg, _, hi⟩ | ⟨_, _, h⟩⟩ := hat
    · rw [hrun] at h; simp at h
    · rw [hrun] at h; simp at h
    rotate_left
    · rw [hrun] at h; simp at h
    rw [step_run_body hu hst hf hcode, hi]
    have hwc : (actState P s r (.waitRun w oo .waiting)).wctx = s.wctx := rfl
    simp only [codeNext, waitNext, doAct]
    rw [if_neg (by rw [hwc, ha]; simp)]
    rfl

end QCoro.Task
