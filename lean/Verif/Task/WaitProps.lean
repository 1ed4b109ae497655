import Verif.Task.WaitAll

/-! # `QCoro::waitFor` (C13, C14)

Vocabulary: `Waits P s op who w r h b`: in state `s` the schedule item `op` makes `who` call `waitFor` on a Task that holds
coroutine `h`; `w` numbers the calls; `b` says whether it is a `Task<void>`.  Events: `loopEnter w` (the call enters its
nested event loop), `waitRet w x` (it returns `x` or rethrows it), `extExit w` (somebody else quits that event loop),
`finished d r` (coroutine `d` completed with outcome `r`). -/
namespace QCoro.Task
variable {σ V E : Type}

theorem life_done_of_fin (P : Prog σ V E) {log : List (Ev V E)} (hok : Chk (legal P) log) {d r} (h : .finished d r ∈ log) : life d log = .done := by
  obtain ⟨a, b, rfl⟩ := List.append_of_mem h
  have h1 : life d (a ++ [.finished d r]) = .done := by simp [life, lifeStep]
  have h2 : a ++ .finished d r :: b = (a ++ [.finished d r]) ++ b := by simp
  rw [h2] at hok ⊢
  exact life_done_stays hok h1

theorem got_mem {d : Nat} {x : Res V E} {p q : List (HEv V E)} (h : Got d x p) : HEv.got d x ∈ p ++ q := by
  rcases h with rfl | rfl <;> simp

/-- What a call got is what the task left for it. -/
theorem wait_got {P : Prog σ V E} {pre : List (Ev V E)} (hok : Chk (legal P) pre) {r d x} {p q : List (HEv V E)} (hg : Got d x p) (hh : hist r pre = p ++ q) :
    ∃ r0 n, .finished d r0 ∈ pre ∧ n < (gots d pre).length ∧ x = readN P n r0 := by
  obtain ⟨p1, e, p2, r0, h1, h2, h3, h4, h5⟩ := got_fins hok (t := r) (d := d) (r := x) (by rw [hh]; exact got_mem hg)
  refine ⟨r0, (gots d p1).length, ?_, ?_, h5⟩
  · rw [h1]; simp [mem_fins.1 (show r0 ∈ fins d p1 by rw [h4]; simp)]
  · rw [h1]
    have : gots d (p1 ++ e :: p2) = gots d p1 ++ gots d (e :: p2) := by simp [gots]
    rw [this]
    rcases h2 with rfl | rfl <;> simp [gots]

theorem ext_mem {r : Nat} {x : Res V E} {log : List (Ev V E)} : HEv.ext x ∈ hist r log ↔ .extRes r x ∈ log := by
  constructor
  · intro h
    obtain ⟨e, he, h2⟩ := List.mem_filterMap.1 h
    cases e <;> simp [hev] at h2
    obtain ⟨rfl, rfl⟩ := h2; exact he
  · intro h
    exact List.mem_filterMap.2 ⟨_, h, by simp [hev]⟩

/-- What call number `w` (runner `r`) waits for has completed: the coroutine of the Task, or the awaitable. -/
def Completed (h : Aim) (r : Nat) (log : List (Ev V E)) : Prop :=
  (∃ d r0, h = .task (some d) ∧ .finished d r0 ∈ log) ∨ (∃ x, h = .ext ∧ .extRes r x ∈ log)

theorem idle_open {P : Prog σ V E} {h r} {log : List (Ev V E)} (hok : Chk (legal P) log) (hi : Idle h (hist r log) (fun d => life d log ≠ .done)) :
    ¬ Completed h r log := by
  rintro (⟨d, r0, rfl, hf⟩ | ⟨x, rfl, hf⟩)
  · have := life_done_of_fin P hok hf
    rcases hi with ⟨_, h⟩ | ⟨d', h, _, h5⟩ | ⟨_, h⟩
    · cases h
    · cases h; exact h5 this
    · cases h
  · rcases hi with ⟨_, h⟩ | ⟨d', h, _⟩ | ⟨h, _⟩
    · cases h
    · cases h
    · have := ext_mem.2 hf; rw [h] at this; simp at this

/-- C13. What `waitFor` returns: the outcome of the task, which is finished by then (what is left of it, if others
awaited the task too); the outcome the awaitable gave, if it is not a Task — or, if somebody else quit the event loop of
a `waitFor` of void type before that, it returns early. -/
theorem C13_returns_result {P : Prog σ V E} {ops op ops' who w r h b} (hm : Waits P (exec P ops) op who w r h b)
    (hu : (exec P (ops ++ op :: ops')).ub = none) {pre post x} (hl : (exec P (ops ++ op :: ops')).log = pre ++ .waitRet w x :: post) :
    (∃ d r0 n, h = .task (some d) ∧ .finished d r0 ∈ pre ∧ n < (gots d pre).length ∧ x = readN P n r0) ∨
    (h = .ext ∧ .extRes r x ∈ pre) ∨
    (.extExit w ∈ pre ∧ b = true ∧ x = .val P.dflt ∧ ¬ Completed h r pre) := by
  obtain ⟨oo, hT⟩ := waits_exec hm hu
  have hok := (exec_linv P (ops ++ op :: ops')).ok
  rw [hl] at hok
  obtain ⟨_, ⟨p, q, ⟨d, h1, h2⟩ | ⟨h1, h2⟩, h3⟩ | ⟨h1, h2, h3, h4⟩⟩ := hT.ok pre _ post hl rfl
  · obtain ⟨r0, n, h4, h5, h6⟩ := wait_got hok.prefix h2 h3
    exact .inl ⟨d, r0, n, h1, h4, h5, h6⟩
  · exact .inr (.inl ⟨h1, ext_mem.1 (by rw [h3, h2]; simp)⟩)
  · exact .inr (.inr ⟨h1, h2, h3, idle_open hok.prefix h4⟩)

/-- C13. `waitFor` returns only after what it waits for completed, unless somebody else quits its event loop. -/
theorem C13_returns_only_after_completion {P : Prog σ V E} {ops op ops' who w r h b} (hm : Waits P (exec P ops) op who w r h b)
    (hu : (exec P (ops ++ op :: ops')).ub = none) {pre post x} (hl : (exec P (ops ++ op :: ops')).log = pre ++ .waitRet w x :: post)
    (hx : .extExit w ∉ pre) : Completed h r pre := by
  rcases C13_returns_result hm hu hl with ⟨d, r0, n, h1, h2, _⟩ | ⟨h1, h2⟩ | ⟨h1, _⟩
  · exact .inl ⟨d, r0, h1, h2⟩
  · exact .inr ⟨x, h1, h2⟩
  · exact absurd h1 hx

/-- C13. Never from an empty Task: without an outside quit the call does not return. -/
theorem C13_empty_task_never_returns {P : Prog σ V E} {ops op ops' who w r b} (hm : Waits P (exec P ops) op who w r (.task none) b)
    (hu : (exec P (ops ++ op :: ops')).ub = none) (hx : .extExit w ∉ (exec P (ops ++ op :: ops')).log) (x) :
    .waitRet w x ∉ (exec P (ops ++ op :: ops')).log := by
  intro hc
  obtain ⟨pre, post, hl⟩ := List.append_of_mem hc
  rcases C13_returns_only_after_completion hm hu hl (by rw [hl] at hx; simp at hx; exact hx.1) with ⟨d, r0, h1, _⟩ | ⟨x, h1, _⟩ <;> cases h1

/-- C13. Exactly the value: if nobody else took the task's result, `waitFor` returns the very outcome the coroutine
completed with. -/
theorem C13_exact_outcome {P : Prog σ V E} {ops op ops' who w r d b} (hm : Waits P (exec P ops) op who w r (.task (some d)) b)
    (hu : (exec P (ops ++ op :: ops')).ub = none) {pre post x} (hl : (exec P (ops ++ op :: ops')).log = pre ++ .waitRet w x :: post)
    (hx : .extExit w ∉ pre) (hone : (gots d pre).length ≤ 1) : .finished d x ∈ pre := by
  rcases C13_returns_result hm hu hl with ⟨d', r0, n, h1, h2, h3, h4⟩ | ⟨h1, _⟩ | ⟨h1, _⟩
  · cases h1
    have : n = 0 := by omega
    subst this; rw [h4]; exact h2
  · cases h1
  · exact absurd h1 hx

/-- C13. Exactly the exception, whoever else awaited the task: `waitFor` rethrows `e` if and only if the coroutine
failed with `e`. -/
theorem C13_exact_exception {P : Prog σ V E} {ops op ops' who w r d b} (hm : Waits P (exec P ops) op who w r (.task (some d)) b)
    (hu : (exec P (ops ++ op :: ops')).ub = none) {pre post x} (hl : (exec P (ops ++ op :: ops')).log = pre ++ .waitRet w x :: post) (e) :
    x = .exc e ↔ .finished d (.exc e) ∈ pre := by
  have hok := (exec_linv P (ops ++ op :: ops')).ok
  rcases C13_returns_result hm hu hl with ⟨d', r0, n, h1, h2, h3, h4⟩ | ⟨h1, _⟩ | ⟨h1, h2, h3, h5⟩
  · cases h1
    constructor
    · intro hx
      cases r0 with
      | val v => obtain ⟨v', hv⟩ := readN_val P v n; rw [hv, hx] at h4; simp at h4
      | exc e' => rw [readN_exc, hx] at h4; cases h4; exact h2
    · intro hf
      have huniq : r0 = .exc e := by
        have h6 := fins_of_mem P (ops ++ op :: ops') (d := d) (r := r0) (by rw [hl]; simp [h2])
        have h7 := fins_of_mem P (ops ++ op :: ops') (d := d) (r := .exc e) (by rw [hl]; simp [hf])
        rw [h6] at h7; simpa using h7
      rw [h4, huniq, readN_exc]
  · cases h1
  · constructor
    · intro hx; rw [h3] at hx; simp at hx
    · intro hf; exact absurd (.inl ⟨d, _, rfl, hf⟩) h5

/-- The runner of a call waits for an awaitable at most once. -/
theorem WT.ext_once {P : Prog σ V E} {who w r oo b} {s : State σ V E} (hT : WT P who w r oo .ext b s) {x y} (h1 : .extRes r x ∈ s.log) (h2 : .extRes r y ∈ s.log) :
    x = y := by
  obtain ⟨ph, _, hat, _⟩ := hT.at'
  have g1 := ext_mem.2 h1
  have g2 := ext_mem.2 h2
  have key : ∀ z (p : List (HEv V E)), GotA .ext z p → p = [.ext z] := by
    rintro z p (⟨d, h, _⟩ | ⟨_, h⟩)
    · cases h
    · exact h
  cases ph with
  | init => rw [hat.1] at g1; simp at g1
  | waiting =>
    rcases hat.2 with ⟨h, _⟩ | ⟨d, h, _⟩ | ⟨z, h, _⟩ | ⟨_, h, _⟩
    · rw [h] at g1; simp at g1
    · cases h
    · rw [key z _ h] at g1 g2; simp at g1 g2; rw [g1, g2]
    · rw [h] at g1; simp at g1
  | signalled => obtain ⟨z, h, _⟩ := hat; rw [key z _ h] at g1 g2; simp at g1 g2; rw [g1, g2]
  | over => obtain ⟨_, z, p, h, h2, _⟩ := hat; rw [h2, key z _ h] at g1 g2; simp at g1 g2; rw [g1, g2]

/-- C13. Exactly what the awaitable gave: a call of `waitFor` on an awaitable that is not a Task returns `x` — value or
exception — if and only if the awaitable completed with `x`; unless the event loop was quit before, when nothing had
been given yet. -/
theorem C13_exact_awaitable {P : Prog σ V E} {ops op ops' who w r b} (hm : Waits P (exec P ops) op who w r .ext b)
    (hu : (exec P (ops ++ op :: ops')).ub = none) {pre post x} (hl : (exec P (ops ++ op :: ops')).log = pre ++ .waitRet w x :: post) :
    (∀ y, .extRes r y ∈ pre ↔ x = y) ∨ (.extExit w ∈ pre ∧ b = true ∧ x = .val P.dflt ∧ ∀ y, .extRes r y ∉ pre) := by
  rcases C13_returns_result hm hu hl with ⟨d', r0, n, h1, _⟩ | ⟨_, h1⟩ | ⟨h1, h2, h3, h4⟩
  · cases h1
  · left; intro y
    constructor
    · intro hy; obtain ⟨oo, hT⟩ := waits_exec hm hu; exact hT.ext_once (by rw [hl]; simp [h1]) (by rw [hl]; simp [hy])
    · rintro rfl; exact h1
  · right; exact ⟨h1, h2, h3, fun y hy => h4 (.inr ⟨y, rfl, hy⟩)⟩

/-- C13. It enters its event loop only if what it waits for is not complete at that moment. -/
theorem C13_loop_only_if_unfinished {P : Prog σ V E} {ops op ops' who w r h b} (hm : Waits P (exec P ops) op who w r h b)
    (hu : (exec P (ops ++ op :: ops')).ub = none) {pre post} (hl : (exec P (ops ++ op :: ops')).log = pre ++ .loopEnter w :: post) :
    ¬ Completed h r pre := by
  obtain ⟨oo, hT⟩ := waits_exec hm hu
  have hok := (exec_linv P (ops ++ op :: ops')).ok
  rw [hl] at hok
  exact idle_open hok.prefix (hT.ok pre _ post hl rfl)

theorem exec_log_prefix (P : Prog σ V E) (l l' : List (Op σ V E)) : ∃ evs, (exec P (l ++ l')).log = (exec P l).log ++ evs := by
  induction l' using QCoro.snocInd with
  | nil => exact ⟨[], by simp⟩
  | snoc m x ih =>
    obtain ⟨evs, h⟩ := ih
    obtain ⟨ev2, h2⟩ := step_log P (exec P (l ++ m)) x
    exact ⟨evs ++ ev2, by rw [← List.append_assoc, exec_snoc, h2, h]; simp⟩

/-- C13. On a task that already finished `waitFor` does not enter an event loop at all. -/
theorem C13_finished_task_no_loop {P : Prog σ V E} {ops op ops' who w r d b} (hm : Waits P (exec P ops) op who w r (.task (some d)) b)
    (hu : (exec P (ops ++ op :: ops')).ub = none) {r0} (hf : .finished d r0 ∈ (exec P ops).log) :
    .loopEnter w ∉ (exec P (ops ++ op :: ops')).log := by
  intro hc
  have hfresh : .loopEnter w ∉ (exec P ops).log := by
    generalize (Aim.task (some d)) = h at hm
    cases hm; exact (exec_fresh P ops (exec_ub_prefix _ _ hu) _ (Nat.le_refl _)).1
  obtain ⟨evs, hl⟩ := exec_log_prefix P ops (op :: ops')
  rw [hl] at hc
  rcases List.mem_append.1 hc with h | h
  · exact hfresh h
  · obtain ⟨p2, post, rfl⟩ := List.append_of_mem h
    exact C13_loop_only_if_unfinished hm hu (pre := (exec P ops).log ++ p2) (post := post) (by rw [hl]; simp) (.inl ⟨d, r0, rfl, by simp [hf]⟩)

/-- C13. A call returns at most once. -/
theorem C13_returns_at_most_once {P : Prog σ V E} {ops op ops' who w r h b} (hm : Waits P (exec P ops) op who w r h b)
    (hu : (exec P (ops ++ op :: ops')).ub = none) {pre post x} (hl : (exec P (ops ++ op :: ops')).log = pre ++ .waitRet w x :: post) (y) :
    .waitRet w y ∉ pre ∧ .waitRet w y ∉ post := by
  obtain ⟨oo, hT⟩ := waits_exec hm hu
  refine ⟨(hT.ok pre _ post hl rfl).1 y, fun hc => ?_⟩
  obtain ⟨p2, q2, rfl⟩ := List.append_of_mem hc
  exact (hT.ok (pre ++ .waitRet w x :: p2) (.waitRet w y) q2 (by rw [hl]; simp) rfl).1 x (by simp)

/-- Call `w` is still active: `waitFor` has not returned to its caller. -/
def ActiveCall (w : Nat) (s : State σ V E) : Prop := ∃ f ∈ s.stack, wOf f = some w

/-- C13. A call has returned iff its activation is gone from the stack. -/
theorem C13_returned_iff_gone {P : Prog σ V E} {ops op ops' who w r h b} (hm : Waits P (exec P ops) op who w r h b)
    (hu : (exec P (ops ++ op :: ops')).ub = none) :
    (∃ x, .waitRet w x ∈ (exec P (ops ++ op :: ops')).log) ↔ ¬ ActiveCall w (exec P (ops ++ op :: ops')) := by
  obtain ⟨oo, hT⟩ := waits_exec hm hu
  have hI := exec_inv P _ hu
  rw [hT.rt]
  have hmem : ActiveCall w (exec P (ops ++ op :: ops')) ↔ w ∈ waits (exec P (ops ++ op :: ops')).stack := by
    simp only [ActiveCall, waits, List.mem_filterMap]
  rw [hmem]
  have hlive := hI.i2.w.live w
  constructor
  · intro h hc
    have : ∀ st, SWF (exec P (ops ++ op :: ops')) st → w ∈ waits st → ((exec P (ops ++ op :: ops')).wctx w).alive = true := by
      intro st
      induction st with
      | nil => intro _ h; simp [waits] at h
      | cons f st ih =>
        rintro ⟨g1, g2⟩ h
        simp only [waits, List.filterMap_cons] at h
        split at h
        · exact ih g2 h
        · rename_i w' hf
          simp at h
          rcases h with rfl | h
          · exact (g1 w hf).2.1
          · exact ih g2 (by simpa [waits] using h)
    rw [this _ hI.i2.w.swf hc] at h; simp at h
  · intro hc
    cases ha : ((exec P (ops ++ op :: ops')).wctx w).alive with
    | false => rfl
    | true => exact absurd (hlive ha) hc

/-- C13. Progress: when control is back in the call (nothing else runs on top of it) and what it waits for is complete, the next
thing that happens is that the call returns. -/
theorem C13_returns_when_finished {P : Prog σ V E} {ops op ops' who w r h b} (hm : Waits P (exec P ops) op who w r h b)
    (hu : (exec P (ops ++ op :: ops')).ub = none) {st} (hst : (exec P (ops ++ op :: ops')).stack = .loop w :: st ∨ (exec P (ops ++ op :: ops')).stack = .waitB w :: st)
    (hf : Completed h r (exec P (ops ++ op :: ops')).log) :
    ∃ x, (exec P (ops ++ op :: ops' ++ [.run])).log = (exec P (ops ++ op :: ops')).log ++ [.waitRet w x] ∧
      (exec P (ops ++ op :: ops' ++ [.run])).stack = st ∧ (exec P (ops ++ op :: ops' ++ [.run])).ub = none := by
  obtain ⟨oo, hT⟩ := waits_exec hm hu
  have hI := exec_inv P _ hu
  have hL := exec_linv P (ops ++ op :: ops')
  rw [exec_snoc]
  generalize exec P (ops ++ op :: ops') = s at *
  have hfin : ∃ x, (s.wctx w).fin = some x := by
    cases hx : (s.wctx w).fin with
    | some x => exact ⟨x, rfl⟩
    | none =>
      exfalso
      exact idle_open hL.ok (hT.idle hI hL (by rcases hst with h | h <;> exact ⟨_, _, h, rfl⟩) hx) hf
  obtain ⟨x, hx⟩ := hfin
  have hex := hT.ex.2 (.inl (by rw [hx]; rfl))
  have hrun : step P s .run = (((s.setW w { s.wctx w with alive := false }).pop).reply (s.wctx w).caller (.res x)).emit (.waitRet w x) := by
    have hr : step P s .run = run P s := by simp [step, hu]
    have hw : waitReturn P s w = (((s.setW w { s.wctx w with alive := false }).pop).reply (s.wctx w).caller (.res x)).emit (.waitRet w x) := by
      unfold waitReturn; dsimp only; rw [hx]
    rw [hr, ← hw]; unfold run
    rcases hst with h | h <;> rw [h] <;> dsimp only
    · rw [if_pos hex]
    · rw [if_pos (by rw [hx]; rfl)]
  refine ⟨x, ?_, ?_, ?_⟩
  · rw [hrun]; show (State.reply _ _ _).log ++ _ = _; rw [reply_log]; rfl
  · rw [hrun]; rcases hst with h | h <;> simp [State.emit, State.pop, State.setW, h]
  · rw [hrun]; show (State.reply _ _ _).ub = _; rw [reply_ub]; exact hu

/-- C13. The value goes to the caller: in the step in which a call made by coroutine `c` returns `x`, control is back in
`c`, which gets `x` as the outcome of its call. -/
theorem C13_delivered_to_caller {P : Prog σ V E} {ops op ops' o c w r h b} (hm : Waits P (exec P ops) op (some c) w r h b)
    (hu : (exec P (ops ++ op :: ops' ++ [o])).ub = none) {x} (hn : .waitRet w x ∉ (exec P (ops ++ op :: ops')).log)
    (hy : .waitRet w x ∈ (exec P (ops ++ op :: ops' ++ [o])).log) :
    (∃ st, (exec P (ops ++ op :: ops' ++ [o])).stack = .body c :: st) ∧ ((exec P (ops ++ op :: ops' ++ [o])).coro c).inp = .res x ∧
    ((exec P (ops ++ op :: ops' ++ [o])).coro c).status = .running := by
  have hu0 : (exec P (ops ++ op :: ops')).ub = none := exec_ub_prefix _ _ hu
  obtain ⟨oo, hT⟩ := waits_exec hm hu0
  have hI := exec_inv P _ hu0
  have hI' := exec_inv P _ hu
  rw [exec_snoc] at hu hy hI' ⊢
  generalize exec P (ops ++ op :: ops') = s at *
  have fin : (∃ st, (step P s o).stack = .body c :: st) → ((step P s o).coro c).inp = .res x →
      (∃ st, (step P s o).stack = .body c :: st) ∧ ((step P s o).coro c).inp = .res x ∧ ((step P s o).coro c).status = .running := by
    rintro ⟨st, h1⟩ h2
    exact ⟨⟨st, h1⟩, h2, (hI'.i2.i1.core.bodyR c).1 (by rw [h1]; simp)⟩
  cases ev_cases P s o with
  | quiet hq =>
    obtain ⟨evs, h1, h2⟩ := hq
    rw [h1] at hy
    rcases List.mem_append.1 hy with h | h
    · exact absurd h hn
    · have := h2 _ h; simp [evW] at this
  | enter w' st hop hst hx he => rw [he] at hy; simp [State.emit, State.push, State.pop] at hy; exact absurd hy hn
  | exit w' hop hx he => rw [he] at hy; simp [State.emit, State.setW] at hy; exact absurd hy hn
  | ret w' st y hop hst hx he =>
    have hwx : w' = w ∧ y = x := by
      rw [he] at hy
      have : Ev.waitRet w x ∈ s.log ++ [.waitRet w' y] := by
        have h3 : ((((s.setW w' { s.wctx w' with alive := false }).pop).reply (s.wctx w').caller (.res y)).emit (.waitRet w' y)).log = s.log ++ [.waitRet w' y] := by
          show (State.reply _ _ _).log ++ _ = _; rw [reply_log]; rfl
        rw [h3] at hy; exact hy
      simp at this
      rcases this with h | ⟨h1, h2⟩
      · exact absurd h hn
      · exact ⟨h1.symm, h2.symm⟩
    obtain ⟨rfl, rfl⟩ := hwx
    have hbody : ∃ st', st = .body c :: st' := by
      have h2 := hI.i2.w.swf
      rcases hst with ⟨h, _⟩ | ⟨h, _⟩ <;> rw [h] at h2 <;> exact ((h2.1 w' rfl).2.2 c hT.cl).1
    obtain ⟨st', hb⟩ := hbody
    have hs2 : s.stack.tail = .body c :: st' := by rcases hst with ⟨h, _⟩ | ⟨h, _⟩ <;> rw [h, hb] <;> rfl
    refine fin ⟨st', ?_⟩ ?_
    · rw [he]; simp [State.emit, State.pop, State.setW, hs2]
    · rw [he, hT.cl]; simp [State.emit, State.pop, State.setW, State.reply, State.setCoro]

/-- C13. Every return belongs to a call: a `waitRet` event stems from a `waitFor` call made earlier in the schedule. -/
theorem C13_every_return_has_a_call (P : Prog σ V E) (ops) (hu : (exec P ops).ub = none) {w x} (h : .waitRet w x ∈ (exec P ops).log) :
    ∃ l op l' who r h b, ops = l ++ op :: l' ∧ Waits P (exec P l) op who w r h b := by
  have hlt : w < (exec P ops).nw := by
    apply Nat.lt_of_not_le
    intro hle
    exact (exec_fresh P ops hu w hle).2.2 x h
  clear h
  induction ops using QCoro.snocInd with
  | nil => simp [exec, init] at hlt
  | snoc l o ih =>
    have hul : (exec P l).ub = none := exec_ub_prefix _ [o] hu
    by_cases hx : w < (exec P l).nw
    · obtain ⟨m, op, l', who, r, h, b, h1, h2⟩ := ih hul hx
      exact ⟨m, op, l' ++ [o], who, r, h, b, by rw [h1]; simp, h2⟩
    · rw [exec_snoc] at hlt
      rcases step_nw P o hul with h1 | ⟨h1, who, o', b, evs, h2, h3⟩
      · omega
      · have : w = (exec P l).nw := by omega
        subst this
        exact ⟨l, o, [], who, _, _, b, rfl, .mk who o' b h2⟩

/-! ### C14: the event loop is quit from outside -/

/-- An early return happened only because the loop of an unfinished `Task<void>` was quit from outside. -/
def EarlyOk (w r : Nat) (h : Aim) (s : State σ V E) : Prop :=
  (s.wctx w).alive = false → (s.wctx w).fin = none →
    ∃ pre x post, s.log = pre ++ .waitRet w x :: post ∧ .extExit w ∈ pre ∧ ¬ Completed h r pre

theorem early_step {P : Prog σ V E} {who w r oo h b} {s : State σ V E} (hE : EarlyOk w r h s) (hT : WT P who w r oo h b s) (hI : Inv s) (hL : LInv P s) (hu : s.ub = none) (op)
    (hu' : (step P s op).ub = none) : EarlyOk w r h (step P s op) := by
  obtain ⟨evs, hlog⟩ := step_log P s op
  have keep : (∃ pre x post, s.log = pre ++ .waitRet w x :: post ∧ .extExit w ∈ pre ∧ ¬ Completed h r pre) →
      ∃ pre x post, (step P s op).log = pre ++ .waitRet w x :: post ∧ .extExit w ∈ pre ∧ ¬ Completed h r pre := by
    rintro ⟨pre, x, post, h1, h2⟩
    exact ⟨pre, x, post ++ evs, by rw [hlog, h1]; simp, h2⟩
  intro ha hf
  cases wstep P op hu hu' (.inl hT.wlt) with
  | same cx => rw [cx] at ha hf; exact keep (hE ha hf)
  | done c st code x hop hst hf' hc hact hal he => rw [he] at hf; simp [State.reply, State.setCoro, State.setW] at hf
  | exit hop hm he =>
    rw [he] at ha hf
    exact keep (hE (by simpa [State.emit, State.setW] using ha) (by simpa [State.emit, State.setW] using hf))
  | ret f st x hop hst hfr hx he =>
    have hf0 : (s.wctx w).fin = none := by rw [he] at hf; simpa [State.emit, State.setW, State.pop] using hf
    rcases hx with ⟨h1, _⟩ | ⟨_, hex, hfl, hv, hxd⟩
    · rw [h1] at hf0; simp at hf0
    · refine ⟨s.log, x, [], ?_, ?_, ?_⟩
      · rw [he]; show (State.reply _ _ _).log ++ _ = _; rw [reply_log]; rfl
      · rcases hT.ex.1 hex with h | h
        · rw [hf0] at h; simp at h
        · exact h
      · exact idle_open hL.ok (hT.idle hI hL ⟨f, st, hst, by rw [hfl]; rfl⟩ hf0)

/-- Everything known about the calls made so far. -/
theorem exec_early (P : Prog σ V E) (ops) (hu : (exec P ops).ub = none) {w} (hw : w < (exec P ops).nw) :
    ∃ who r oo h b, WT P who w r oo h b (exec P ops) ∧ EarlyOk w r h (exec P ops) := by
  induction ops using QCoro.snocInd with
  | nil => simp [exec, init] at hw
  | snoc l x ih =>
    have hul : (exec P l).ub = none := exec_ub_prefix _ [x] hu
    by_cases hlt : w < (exec P l).nw
    · obtain ⟨who, r, oo, h, b, h1, h2⟩ := ih hul hlt
      rw [exec_snoc] at hu ⊢
      exact ⟨who, r, oo, h, b, WT_step h1 (exec_inv P _ hul) (exec_linv P _) hul x hu, early_step h2 h1 (exec_inv P _ hul) (exec_linv P _) hul x hu⟩
    · rw [exec_snoc] at hw
      rcases step_nw P x hul with h1 | ⟨h1, who, o, b, evs, h2, h3⟩
      · omega
      · have : w = (exec P l).nw := by omega
        subst this
        obtain ⟨oo, h4⟩ := waits_WT (.mk who o b h2) hu
        refine ⟨who, _, oo, _, b, h4, ?_⟩
        intro ha hf
        exfalso
        obtain ⟨y, hy⟩ := h4.rt.2 ha
        have hd := (exec_fresh P l hul _ (Nat.le_refl _)).2.2 y
        have hq : (exec P (l ++ [x])).log = (exec P l).log ++ .waitCall (exec P l).nw (exec P l).nc ((exec P l).aim o) :: evs := by rw [exec_snoc]; exact h3
        rw [hq] at hy
        cases ev_cases P (exec P l) x with
        | quiet hn =>
          obtain ⟨ev2, g1, g2⟩ := hn
          rw [h3] at g1
          have := List.append_cancel_left g1
          rcases List.mem_append.1 hy with h | h
          · exact hd h
          · have := g2 _ (by rw [← this]; exact h); simp [evW] at this
        | enter w' st hop hst hn he =>
          rw [he] at h3; simp [State.emit, State.push, State.pop] at h3
        | exit w' hop hm he => rw [he] at h3; simp [State.emit, State.setW] at h3
        | ret w' st y' hop hst hx he =>
          rw [he] at h3
          have : (exec P l).log ++ [.waitRet w' y'] = (exec P l).log ++ .waitCall (exec P l).nw (exec P l).nc ((exec P l).aim o) :: evs := by
            rw [← h3]; show _ = (State.reply _ _ _).log ++ _; rw [reply_log]; rfl
          simp at this

/-- C14 (what holds). The two undefined behaviours of `waitFor` — dereferencing an empty result, writing to a dead
`WaitContext` — happen only after somebody else quit the event loop of a call whose task was unfinished. -/
theorem C14_ub_only_after_outside_quit (P : Prog σ V E) (ops)
    (h : (exec P ops).ub = some .waitNoResult ∨ (exec P ops).ub = some .waitCtxDead) :
    ∃ l op l' who w r h b, ops = l ++ op :: l' ∧ Waits P (exec P l) op who w r h b ∧ .extExit w ∈ (exec P ops).log ∧
      ((exec P ops).ub = some .waitNoResult → ¬ Completed h r (exec P ops).log) := by
  induction ops using QCoro.snocInd with
  | nil => simp [exec, init] at h
  | snoc l x ih =>
    cases hul : (exec P l).ub with
    | some u =>
      rw [exec_snoc, step_ub P (by simp [hul])] at h ⊢
      obtain ⟨m, op, l', who, w, r, h, b, h1, h2⟩ := ih h
      exact ⟨m, op, l' ++ [x], who, w, r, h, b, by rw [h1]; simp, h2⟩
    | none =>
      have hI := exec_inv P l hul
      have hL := exec_linv P l
      have hcall : ∀ w, w < (exec P l).nw → ∃ m op l' who r h b oo, l ++ [x] = m ++ op :: l' ∧ Waits P (exec P m) op who w r h b ∧ WT P who w r oo h b (exec P l) ∧ EarlyOk w r h (exec P l) := by
        intro w hw
        clear h ih
        have : ∃ m op l' who r h b, l = m ++ op :: l' ∧ Waits P (exec P m) op who w r h b := by
          clear hI hL
          induction l using QCoro.snocInd with
          | nil => simp [exec, init] at hw
          | snoc l o ih =>
            have hul' : (exec P l).ub = none := exec_ub_prefix _ [o] hul
            by_cases hx : w < (exec P l).nw
            · obtain ⟨m, op, l', who, r, h, b, h1, h2⟩ := ih hul' hx
              exact ⟨m, op, l' ++ [o], who, r, h, b, by rw [h1]; simp, h2⟩
            · rw [exec_snoc] at hw
              rcases step_nw P o hul' with h1 | ⟨h1, who, o', b, evs, h2, h3⟩
              · omega
              · have : w = (exec P l).nw := by omega
                subst this
                exact ⟨l, o, [], who, _, _, b, rfl, .mk who o' b h2⟩
        obtain ⟨m, op, l', who, r, h, b, rfl, h2⟩ := this
        obtain ⟨oo, h3⟩ := waits_exec h2 hul
        obtain ⟨who', r', oo', h', b', h4, h5⟩ := exec_early P _ hul hw
        have hrr : r' = r := by obtain ⟨ph, hc, _⟩ := h4.at'; exact h3.uniq r' oo' ph hc
        subst hrr
        refine ⟨m, op, l' ++ [x], who, r', h, b, oo, by simp, h2, h3, ?_⟩
        intro ha hf
        obtain ⟨pre, y, post, hq, hq2, hq3⟩ := h5 ha hf
        refine ⟨pre, y, post, hq, hq2, ?_⟩
        rcases (h3.ok pre _ post hq rfl).2 with ⟨p, q, g1, g3⟩ | ⟨_, _, _, g⟩
        · rcases (h4.ok pre _ post hq rfl).2 with ⟨p', q', k1, k3⟩ | ⟨_, _, _, k⟩
          · have hhh : h' = h := by
              rw [g3] at k3
              rcases g1 with ⟨d, rfl, g2⟩ | ⟨rfl, rfl⟩ <;> rcases k1 with ⟨d', rfl, k2⟩ | ⟨rfl, rfl⟩
              · rcases g2 with rfl | rfl <;> rcases k2 with rfl | rfl <;> simp at k3 <;> simp [k3]
              · rcases g2 with rfl | rfl <;> simp at k3
              · rcases k2 with rfl | rfl <;> simp at k3
              · rfl
            subst hhh; exact hq3
          · rcases k with ⟨k, _⟩ | ⟨d2, _, k, _⟩ | ⟨k, _⟩ <;> rw [k] at g3 <;> rcases g1 with ⟨d, rfl, g2 | g2⟩ | ⟨rfl, g2⟩ <;> rw [g2] at g3 <;> simp at g3
        · have hok := hL.ok
          rw [hq] at hok
          exact idle_open hok.prefix g
      rw [exec_snoc] at h ⊢
      have hn : ¬ NoUW (step P (exec P l) x) := by rintro ⟨h1, h2⟩; rcases h with h | h <;> simp_all
      cases step_uw P x hul hn with
      | noRes w st hop hst he hf hv hs =>
        have hw : w < (exec P l).nw := by
          have h2 := hI.i2.w.swf; rw [hst] at h2
          exact (h2.1 w rfl).1
        obtain ⟨m, op, l', who, r, h, b, oo, h1, h2, h3, h4⟩ := hcall w hw
        refine ⟨m, op, l', who, w, r, h, b, h1, h2, ?_, ?_⟩
        · rw [hs]
          rcases h3.ex.1 he with h | h
          · rw [hf] at h; simp at h
          · exact h
        · intro _; rw [hs]
          exact idle_open hL.ok (h3.idle hI hL ⟨_, _, hst, rfl⟩ hf)
      | dead c st w o y hop hst hf hc hi hd hs hl =>
        have hw : w < (exec P l).nw := by
          apply Nat.lt_of_not_le
          intro hle
          exact runFresh_exec P l hul w hle c o .waiting hc
        obtain ⟨m, op, l', who, r, h, b, oo, h1, h2, h3, h4⟩ := hcall w hw
        refine ⟨m, op, l', who, w, r, h, b, h1, h2, ?_, ?_⟩
        · rw [hl]
          have hcr := h3.uniq c o .waiting hc
          subst hcr
          obtain ⟨ph, hcode, hat, _⟩ := h3.at'
          rw [hc] at hcode; cases hcode
          obtain ⟨pre, z, post, hq, hq2, _⟩ := h4 hd hat.1
          rw [hq]; simp [hq2]
        · intro h; rw [hs] at h; simp at h

/-- C14 (what holds). A program whose nested event loops are never quit from outside never meets these undefined
behaviours. -/
theorem C14_no_outside_quit (P : Prog σ V E) (ops) (h : ∀ w, .exitLoop w ∉ ops) :
    (exec P ops).ub ≠ some .waitNoResult ∧ (exec P ops).ub ≠ some .waitCtxDead := by
  have hno : ∀ w, .extExit w ∉ (exec P ops).log := by
    induction ops using QCoro.snocInd with
    | nil => intro w; simp [exec, init]
    | snoc l x ih =>
      have ih := ih fun w hw => h w (by simp [hw])
      intro w hm
      rw [exec_snoc] at hm
      cases ev_cases P (exec P l) x with
      | quiet hn =>
        obtain ⟨evs, g1, g2⟩ := hn
        rw [g1] at hm
        rcases List.mem_append.1 hm with h | h
        · exact ih w h
        · have := g2 _ h; simp [evW] at this
      | enter w' st hop hst hn he => rw [he] at hm; simp [State.emit, State.push, State.pop] at hm; exact ih w hm
      | exit w' hop hx he => exact h w' (by simp [hop])
      | ret w' st y hop hst hx he =>
        rw [he] at hm
        have : Ev.extExit w ∈ (exec P l).log ++ [.waitRet w' y] := by
          have h3 : ((((exec P l).setW w' { (exec P l).wctx w' with alive := false }).pop).reply ((exec P l).wctx w').caller (.res y)).emit (.waitRet w' y) = ((((exec P l).setW w' { (exec P l).wctx w' with alive := false }).pop).reply ((exec P l).wctx w').caller (.res y)).emit (.waitRet w' y) := rfl
          have h4 : (((((exec P l).setW w' { (exec P l).wctx w' with alive := false }).pop).reply ((exec P l).wctx w').caller (.res y)).emit (.waitRet w' y)).log = (exec P l).log ++ [.waitRet w' y] := by
            show (State.reply _ _ _).log ++ _ = _; rw [reply_log]; rfl
          rw [h4] at hm; exact hm
        simp at this
        exact ih w this
  constructor <;> intro hu
  · obtain ⟨_, _, _, _, w, _, _, _, _, _, h, _⟩ := C14_ub_only_after_outside_quit P ops (.inl hu)
    exact hno w h
  · obtain ⟨_, _, _, _, w, _, _, _, _, _, h, _⟩ := C14_ub_only_after_outside_quit P ops (.inr hu)
    exact hno w h

end QCoro.Task
