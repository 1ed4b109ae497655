import Verif.Task.Steps

/-!
Property theorems C01–C12 about `Task`/`LazyTask`: for every user program `P` and every schedule `ops`, the state
`exec P ops` and its trace `(exec P ops).log`.  Trace vocabulary (`life`, `regs`, `woken`, `gots`, `fins`) is in
`Trace.lean`.
-/
namespace QCoro.Task
variable {σ V E : Type}

/-! ### A demonstration program for the non-vacuity examples -/

/-- Bodies: 0 = `co_return co_await external`, 10 = `co_return co_await <task object v>`,
20 = `co_return 7`, 30 = `throw 9`. -/
def demoNext : Nat → Resp Nat Nat → Nat × UAct Nat Nat Nat
  | 0, _ => (1, .awaitExt none)
  | 1, .res (.val v) => (2, .ret v)
  | 1, .res (.exc e) => (2, .throw e)
  | 10, .start _ v => (11, .await v)
  | 11, .res (.val v) => (2, .ret v)
  | 11, .res (.exc e) => (2, .throw e)
  | 20, _ => (2, .ret 7)
  | 30, _ => (2, .throw 9)
  | 40, .start _ v => (41, .note v)      -- plain callback: observe the value, then return it + 1
  | 41, _ => (2, .ret 1)
  | 50, .start _ v => (51, .waitFor (.task v) false)   -- co_return QCoro::waitFor(task v)
  | 51, .res (.val v) => (2, .ret v)
  | 51, .res (.exc e) => (2, .throw e)
  | 60, .start _ v => (1, .awaitExt (some (.val v)))   -- co_return co_await <an awaitable that is ready with v>
  | 70, .start _ v => (2, .ret (v + 1))                -- co_return v + 1
  | _, _ => (2, .ret 0)

def demo : Prog Nat Nat Nat := { next := demoNext, isStd := fun e => decide (e < 100), mv := fun _ => 0, dflt := 0 }

/-- `n` machine steps. -/
def go (n : Nat) : List (Op Nat Nat Nat) := List.replicate n .run

/-- Task 0 awaits something external; coroutines 1 and 2 await task 0. -/
def demoTwo : List (Op Nat Nat Nat) :=
  [.main (.call .eager 0 0 [])] ++ go 3 ++ [.main (.call .eager 10 0 [])] ++ go 3 ++
  [.main (.call .eager 10 0 [])] ++ go 3

def demoTwoDone : List (Op Nat Nat Nat) := demoTwo ++ [.fire 0 (.val 5)] ++ go 12

/-! ### C01 -/

/-- C01. Whatever the program and the schedule, the only undefined behaviour that can arise is caller misuse: naming a
Task object that does not exist any more, awaiting an empty LazyTask, awaiting a LazyTask that is already running, or
quitting `waitFor`'s event loop from outside.  In particular never: access to or resumption of a destroyed frame,
reference count underflow, resuming a coroutine that is not suspended, destroying a running one, reading a result that
is not there, a library temporary used or destroyed twice. -/
theorem C01_memory_safe (P : Prog σ V E) (ops : List (Op σ V E)) (u : UB) (h : (exec P ops).ub = some u) :
    u = .badObj ∨ u = .lazyNull ∨ u = .lazyReawait ∨ u = .waitNoResult ∨ u = .waitCtxDead := by
  have := (exec_induction (P := P) (I := fun _ => True) trivial (fun _ _ _ _ _ => trivial) ops).2.2 u h
  cases u <;> simp [UB.misuse] at this ⊢

/-- C01. No Task object ever holds a destroyed coroutine. -/
theorem C01_no_dangling_task (P : Prog σ V E) (ops) (hu : (exec P ops).ub = none) (o c : Nat)
    (h : ((exec P ops).obj o).handle = some c) : .destroyed c ∉ (exec P ops).log := by
  have hi := (exec_inv P ops hu).i2.i1.core
  rw [(exec_linv P ops).ds, (hi.hOk o c h).2.1]; simp

/-- C01. Nothing of a destroyed coroutine is executing, or waiting to be resumed. -/
theorem C01_no_dangling_frame (P : Prog σ V E) (ops) (hu : (exec P ops).ub = none) (c : Nat)
    (h : .destroyed c ∈ (exec P ops).log) :
    Frame.body c ∉ (exec P ops).stack ∧ Frame.final c ∉ (exec P ops).stack ∧
    ∀ d, c ∉ pend ((exec P ops).coro d) := by
  have hi := (exec_inv P ops hu).i2.i1.core
  rw [(exec_linv P ops).ds] at h
  have hself := hi.frS c h
  have hlt : c < (exec P ops).nc := by
    apply Nat.lt_of_not_le; intro hge
    rw [hi.corB c hge] at h; simp at h
  have hdone := hi.selfD c hlt hself
  refine ⟨?_, ?_, ?_⟩
  · intro hb
    have := (hi.bodyR c).1 (by simp [bodies]; exact ⟨_, hb, rfl⟩)
    simp [hdone] at this
  · intro hb
    have := (hi.finR c).1 (by simp [finals]; exact ⟨_, hb, rfl⟩)
    simp [hself] at this
  · intro d hd
    have := (hi.pendR d c).1 hd
    simp [hdone] at this

/-- Misuse is reachable, so the exclusions above are not vacuous; and long runs without any are, too. -/
example : (exec demo [.main (.drop 3)]).ub = some .badObj := by decide
example : (exec demo [.main (.mkNull .lazy), .main (.call .eager 10 0 []), .run]).ub = some .lazyNull := by decide
example : (exec demo demoTwoDone).ub = none ∧ (exec demo demoTwoDone).stack = [] := by decide

/-! ### C02 -/

theorem holders_none {obj : Nat → Obj} {n c : Nat} (h : ∀ o, (obj o).handle ≠ some c) : holders obj n c = 0 := by
  induction n with
  | zero => rfl
  | succ n ih => simp [holders, ih, h n]

/-- C02. A coroutine's frame has been freed if and only if the coroutine has completed, is not in the middle of
resuming its awaiters, and no Task object refers to it. -/
theorem C02_freed_iff (P : Prog σ V E) (ops) (hu : (exec P ops).ub = none) (c : Nat) (k : Kind)
    (hb : .spawned c k ∈ (exec P ops).log) :
    .destroyed c ∈ (exec P ops).log ↔
      (life c (exec P ops).log = .done ∧ Frame.final c ∉ (exec P ops).stack ∧
        ∀ o, ((exec P ops).obj o).handle ≠ some c) := by
  have hi := (exec_inv P ops hu).i2.i1.core
  have hL := exec_linv P ops
  generalize exec P ops = s at *
  have hlt := ((hL.kd c k).1 hb).1
  have hfm : Frame.final c ∈ s.stack ↔ c ∈ finals s.stack := by
    simp only [finals, List.mem_filterMap]
    constructor
    · intro h; exact ⟨_, h, rfl⟩
    · rintro ⟨f, hf, h⟩; cases f <;> simp at h; subst h; exact hf
  rw [hL.ds, hL.life, hfm, hi.finR]
  constructor
  · intro h
    have hself := hi.frS c h
    refine ⟨hi.selfD c hlt hself, by simp [hself], ?_⟩
    intro o ho
    have := (hi.hOk o c ho).2.1
    simp [h] at this
  · rintro ⟨h1, h2, h3⟩
    cases hf : (s.coro c).freed with
    | true => rfl
    | false =>
      have hself : (s.coro c).selfRef = false := by simpa [h1] using h2
      have := hi.rcOk c hlt hf
      rw [holders_none h3, hself] at this
      simp at this
      omega

/-- C02. … and at most once. -/
theorem C02_freed_once [DecidableEq V] [DecidableEq E] (P : Prog σ V E) (ops) (c : Nat) :
    (exec P ops).log.count (.destroyed c) ≤ 1 := by
  refine once_of_legal (exec_linv P ops).ok ?_
  intro pre post h
  exact ((exec_linv P ops).ok pre _ post h).2.1

/-- Invariant used for the leak theorem. -/
theorem exec_orphan (P : Prog σ V E) (ops ops' : List (Op σ V E)) (hu : (exec P ops).ub = none) (c : Nat) (hc : c < (exec P ops).nc)
    (hl : ((exec P ops).coro c).status = .initial) (hn : ∀ o, ((exec P ops).obj o).handle ≠ some c) :
    ((exec P (ops ++ ops')).coro c).status = .initial := by
  have key : ∀ r : List (Op σ V E), c < (exec P (ops ++ r.reverse)).nc ∧ ((exec P (ops ++ r.reverse)).coro c).status = .initial ∧
      (∀ o, ((exec P (ops ++ r.reverse)).obj o).handle ≠ some c) := by
    intro r
    induction r with
    | nil => simpa using ⟨hc, hl, hn⟩
    | cons op r ih =>
      rw [List.reverse_cons, ← List.append_assoc, exec_snoc]
      generalize hs : exec P (ops ++ r.reverse) = s at ih
      by_cases hub : s.ub = none
      · have hcore : Core s := by subst hs; exact (exec_inv P _ hub).i2.i1.core
        have he := eff3_step P s op hcore
        refine ⟨Nat.lt_of_lt_of_le ih.1 he.nc, he.ini c ih.1 ih.2.1 ih.2.2, ?_⟩
        intro o ho
        rcases he.hs o c ho with h' | ⟨o', h'⟩
        · exact absurd ih.1 (by omega)
        · exact ih.2.2 o' h'
      · have : step P s op = s := by
          simp only [step]; rw [if_pos]
          cases h : s.ub with
          | none => exact absurd h hub
          | some u => rfl
        rw [this]; exact ih
  simpa using (key ops'.reverse).2.1

/-- C02, the exception: a LazyTask that is dropped before it was ever awaited can never run and its frame is never
freed, whatever happens later (the destructor only prints a warning). -/
theorem C02_unawaited_lazy_leaks (P : Prog σ V E) (ops ops' : List (Op σ V E)) (hu : (exec P ops).ub = none) (c : Nat)
    (hl : life c (exec P ops).log = .initial) (hn : ∀ o, ((exec P ops).obj o).handle ≠ some c) :
    life c (exec P (ops ++ ops')).log = .initial ∧ .destroyed c ∉ (exec P (ops ++ ops')).log := by
  have hi := (exec_inv P ops hu).i2.i1.core
  rw [(exec_linv P ops).life] at hl
  have hlt : c < (exec P ops).nc := by
    apply Nat.lt_of_not_le; intro hge
    rw [hi.corB c hge] at hl; simp at hl
  have h1 := exec_orphan P ops ops' hu c hlt hl hn
  refine ⟨by rw [(exec_linv P _).life]; exact h1, ?_⟩
  intro hd
  obtain ⟨pre, post, hp, hd⟩ := (exec_linv P (ops ++ ops')).ok.mem hd
  have h2 := (exec_linv P (ops ++ ops')).ok
  rw [hp] at h2
  have := life_done_stays h2 hd.1
  rw [← hp, (exec_linv P _).life, h1] at this
  simp at this

example : .destroyed 1 ∈ (exec demo (demoTwoDone ++ [.main (.drop 1), .run])).log ∧
    .destroyed 1 ∉ (exec demo demoTwoDone).log := by decide
/-- The leak happens: create a LazyTask and drop it. -/
example : let s := exec demo [.main (.call .lazy 20 0 []), .main (.drop 0), .run]
    s.ub = none ∧ life 0 s.log = .initial ∧ (s.obj 0).handle = none ∧ s.no = 1 := by decide

/-! ### C03 -/

/-- C03. A coroutine is destroyed only after it has completed. -/
theorem C03_destroyed_only_when_done (P : Prog σ V E) (ops) (c : Nat) (pre post)
    (h : (exec P ops).log = pre ++ .destroyed c :: post) : life c pre = .done :=
  ((exec_linv P ops).ok pre _ post h).1

theorem dropObj_coro (s : State σ V E) (o i : Nat) :
    ((dropObj s o).coro i).status = (s.coro i).status ∧ ((dropObj s o).coro i).code = (s.coro i).code ∧
    ((dropObj s o).coro i).inp = (s.coro i).inp ∧ ((dropObj s o).coro i).awaiters = (s.coro i).awaiters ∧
    ((dropObj s o).coro i).result = (s.coro i).result ∧ ((dropObj s o).coro i).fin = (s.coro i).fin := by
  unfold dropObj
  split
  · exact ⟨rfl, rfl, rfl, rfl, rfl, rfl⟩
  · unfold deref
    split
    · exact ⟨rfl, rfl, rfl, rfl, rfl, rfl⟩
    · split
      · exact ⟨rfl, rfl, rfl, rfl, rfl, rfl⟩
      · split
        · exact ⟨rfl, rfl, rfl, rfl, rfl, rfl⟩
        · simp only [State.push, State.emit, State.setCoro]
          split
          · rename_i h; subst h; exact ⟨rfl, rfl, rfl, rfl, rfl, rfl⟩
          · exact ⟨rfl, rfl, rfl, rfl, rfl, rfl⟩
      · simp only [State.setCoro]
        split
        · rename_i h; subst h; exact ⟨rfl, rfl, rfl, rfl, rfl, rfl⟩
        · exact ⟨rfl, rfl, rfl, rfl, rfl, rfl⟩

/-- C03. Destroying a Task object changes neither where any coroutine stands, nor its pending input, awaiters or
result; it does not resume or suspend anybody. -/
theorem C03_drop_is_inert (P : Prog σ V E) (ops) (o i : Nat) :
    let s := exec P ops
    let s' := exec P (ops ++ [.main (.drop o)])
    (s'.coro i).status = (s.coro i).status ∧ (s'.coro i).code = (s.coro i).code ∧ (s'.coro i).inp = (s.coro i).inp ∧
    (s'.coro i).awaiters = (s.coro i).awaiters ∧ (s'.coro i).result = (s.coro i).result ∧
    (s'.coro i).fin = (s.coro i).fin := by
  intro s s'
  have hs' : s' = step P s (.main (.drop o)) := exec_snoc _ _ _
  clear_value s s'
  subst hs'
  simp only [step]
  split
  · exact ⟨rfl, rfl, rfl, rfl, rfl, rfl⟩
  · split
    · simp only [doUser]
      split
      · exact dropObj_coro _ _ _
      · exact ⟨rfl, rfl, rfl, rfl, rfl, rfl⟩
    · exact ⟨rfl, rfl, rfl, rfl, rfl, rfl⟩

/-- C03. A suspended coroutine continues when what it waits for completes, regardless of whether any Task object refers
to it. -/
theorem C03_continues_without_owner (P : Prog σ V E) (ops) (c : Nat) (r : Res V E) (hu : (exec P ops).ub = none)
    (hw : life c (exec P ops).log = .waitExt) (hl : (exec P ops).mayAct = true) :
    let s := exec P ops
    let s' := exec P (ops ++ [.fire c r])
    s'.ub = none ∧ life c s'.log = .running ∧ s'.stack = .body c :: s.stack ∧ (s'.coro c).inp = .res r ∧
      (s'.coro c).code = (s.coro c).code ∧ (s'.coro c).freed = false := by
  have hi := (exec_inv P ops hu).i2.i1.core
  have hst : ((exec P ops).coro c).status = .waitExt := by rw [← (exec_linv P ops).life]; exact hw
  intro s s'
  have hs' : s' = step P s (.fire c r) := exec_snoc _ _ _
  have hlife : life c s'.log = (s'.coro c).status := (exec_linv P _).life c
  rw [hlife]
  clear hlife
  have hf : (s.coro c).freed = false := hi.notFreed (hi.statusLt (by simp [hst])) (by simp [hst])
  have hfire : step P s (.fire c r) =
      ((s.setCoro c { s.coro c with status := .running, inp := .res r }).emit (.extRes c r)).push (.body c) := by
    simp only [step]
    rw [if_neg (by show ¬ (exec P ops).ub.isSome = true; simp [hu]), if_pos]
    simp only [Bool.and_eq_true, decide_eq_true_eq]; exact ⟨hl, hst⟩
  rw [hs', hfire]
  refine ⟨hu, ?_, rfl, ?_, ?_, ?_⟩ <;> simp [State.emit, State.push, State.setCoro, hf]

/-- The dropped coroutine finishes. -/
example : let s := exec demo ([.main (.call .eager 0 0 [])] ++ go 3 ++ [.main (.drop 0), .fire 0 (.val 5)] ++ go 5)
    s.ub = none ∧ .finished 0 (.val 5) ∈ s.log ∧ .destroyed 0 ∈ s.log := by decide

/-! ### C04 -/

/-- C04. At any moment those who suspended on `d`, in order, are those who have been resumed, in the same order,
followed by those still suspended, each exactly once; and once `d` has completed and finished resuming, nobody is left. -/
theorem C04_fifo_exactly_once (P : Prog σ V E) (ops) (hu : (exec P ops).ub = none) (d : Nat) :
    ∃ q : List Nat, regs d (exec P ops).log = woken d (exec P ops).log ++ q ∧ q.Nodup ∧
      (∀ a, a ∈ q ↔ life a (exec P ops).log = .waitTask d) ∧
      (life d (exec P ops).log = .done → Frame.final d ∉ (exec P ops).stack → q = []) := by
  have hi := (exec_inv P ops hu).i2.i1.core
  have hL := exec_linv P ops
  refine ⟨pend ((exec P ops).coro d), hL.rg d, hi.pendN d, ?_, ?_⟩
  · intro a; rw [hi.pendR, hL.life]
  · intro h1 h2
    rw [hL.life] at h1
    have : ((exec P ops).coro d).selfRef = false := by
      cases hx : ((exec P ops).coro d).selfRef with
      | false => rfl
      | true =>
        have := (hi.finR d).2 ⟨h1, hx⟩
        simp only [finals, List.mem_filterMap] at this
        obtain ⟨f, hf, h3⟩ := this
        cases f <;> simp at h3
        subst h3; exact absurd hf h2
    simp [pend, h1, hi.finE d this]

/-- C04. When control is back in the application's event loop, everybody who awaited a completed coroutine has been
resumed. -/
theorem C04_all_resumed (P : Prog σ V E) (ops) (hu : (exec P ops).ub = none) (d : Nat) (hs : (exec P ops).stack = [])
    (hd : life d (exec P ops).log = .done) :
    woken d (exec P ops).log = regs d (exec P ops).log ∧ ∀ a, life a (exec P ops).log ≠ .waitTask d := by
  obtain ⟨q, h1, h2, h3, h4⟩ := C04_fifo_exactly_once P ops hu d
  have hq := h4 hd (by simp [hs])
  subst hq
  exact ⟨by simpa using h1.symm, fun a ha => by simpa using (h3 a).2 ha⟩

/-- C04. An awaiter is resumed only after completion, only while it is suspended on exactly this task, and it is the
longest waiting one. -/
theorem C04_resumed_after_completion (P : Prog σ V E) (ops) (a d : Nat) (r : Res V E) (pre post)
    (h : (exec P ops).log = pre ++ .gotWoken a d r :: post) :
    life d pre = .done ∧ life a pre = .waitTask d ∧ ∃ rest, regs d pre = woken d pre ++ a :: rest := by
  have := (exec_linv P ops).ok pre _ post h
  exact ⟨this.2.1, this.1, this.2.2.2.1⟩

/-- C04. Between suspension and resumption the awaiter does nothing else. -/
theorem C04_stays_suspended (P : Prog σ V E) (ops) (a d : Nat) (pre post)
    (h : (exec P ops).log = pre ++ .awaitReg a d :: post) :
    (∃ r, .gotWoken a d r ∈ post) ∨ life a (exec P ops).log = .waitTask d := by
  by_cases hx : life a (exec P ops).log = .waitTask d
  · exact Or.inr hx
  · left
    have hl : life a (pre ++ [.awaitReg a d] : List (Ev V E)) = .waitTask d := by simp [lifeStep]
    have hh : (exec P ops).log = (pre ++ [.awaitReg a d]) ++ post := by rw [h]; simp
    have hok := (exec_linv P ops).ok
    rw [hh] at hok hx
    exact life_woken hok hl hx

example : regs 0 (exec demo demoTwo).log = [1, 2] ∧ woken 0 (exec demo demoTwo).log = [] ∧
    woken 0 (exec demo demoTwoDone).log = [1, 2] ∧ (exec demo demoTwoDone).stack = [] ∧
    life 0 (exec demo demoTwoDone).log = .done := by decide

/-! ### C05, C06 -/

theorem gots_spec {P : Prog σ V E} {d : Nat} (r : List (Ev V E)) (h : Chk (legal P) r.reverse) :
    (fins d r.reverse = [] ∧ gots d r.reverse = []) ∨
    ∃ r0, fins d r.reverse = [r0] ∧ gots d r.reverse = (List.range (gots d r.reverse).length).map (readN P · r0) := by
  induction r with
  | nil => left; exact ⟨rfl, rfl⟩
  | cons e r ih =>
    rw [List.reverse_cons] at h ⊢
    have ih := ih h.prefix
    have hl := h r.reverse e [] rfl
    rw [fins_snoc, gots_snoc]
    cases e with
    | finished x v =>
      by_cases hx : x = d
      · subst hx
        have h2 := hl.2
        rcases ih with ⟨h3, h4⟩ | ⟨r0, h3, _⟩
        · right; exact ⟨v, by simp [h3], by simp [h4]⟩
        · simp [h3] at h2
      · simpa [hx] using ih
    | gotReady a x v =>
      by_cases hx : x = d
      · subst hx
        obtain ⟨_, _, _, r0, h3, h4⟩ := hl
        rcases ih with ⟨h5, _⟩ | ⟨r1, h5, h6⟩
        · simp [h5] at h3
        · rw [h3] at h5; simp at h5; subst h5
          right; refine ⟨r0, by simp [h3], ?_⟩
          simp only [if_true, List.length_append, List.length_cons, List.length_nil]
          rw [List.range_succ, List.map_append, ← h6]; simp [h4]
      · simpa [hx] using ih
    | gotWoken a x v =>
      by_cases hx : x = d
      · subst hx
        obtain ⟨_, _, _, _, r0, h3, h4⟩ := hl
        rcases ih with ⟨h5, _⟩ | ⟨r1, h5, h6⟩
        · simp [h5] at h3
        · rw [h3] at h5; simp at h5; subst h5
          right; refine ⟨r0, by simp [h3], ?_⟩
          simp only [if_true, List.length_append, List.length_cons, List.length_nil]
          rw [List.range_succ, List.map_append, ← h6]; simp [h4]
      · simpa [hx] using ih
    | _ => simpa using ih

/-- C05, full characterisation. A coroutine completes at most once; if it completes with `r0`, the co_awaits on it
deliver, in order, `r0`, then `r0` after one move-out, then after two, …; before it completes they deliver nothing. -/
theorem C05_delivered (P : Prog σ V E) (ops) (d : Nat) :
    (fins d (exec P ops).log = [] ∧ gots d (exec P ops).log = []) ∨
    ∃ r0, fins d (exec P ops).log = [r0] ∧
      gots d (exec P ops).log = (List.range (gots d (exec P ops).log).length).map (readN P · r0) := by
  have := gots_spec (P := P) (d := d) (exec P ops).log.reverse (by simpa using (exec_linv P ops).ok)
  simpa using this

/-- C05. The first co_await on a coroutine delivers exactly what it returned. The
later ones may not, for types whose move empties the source: `C05_later_awaiter_counterexample`. -/
theorem C05_first_awaiter (P : Prog σ V E) (ops) (d : Nat) (r : Res V E) (rs)
    (h : gots d (exec P ops).log = r :: rs) : fins d (exec P ops).log = [r] := by
  rcases C05_delivered P ops d with ⟨_, h2⟩ | ⟨r0, h1, h2⟩
  · simp [h2] at h
  · rw [h] at h2
    simp only [List.length_cons] at h2
    rw [List.range_succ_eq_map] at h2
    simp [readN] at h2
    rw [h1, h2.1]

theorem readN_id {P : Prog σ V E} (hm : ∀ v, P.mv v = v) (n : Nat) (r : Res V E) : readN P n r = r := by
  induction n with
  | zero => rfl
  | succ n ih => simp only [readN, ih]; cases r <;> simp [afterRead, hm]

/-- C05. For types whose move leaves the source unchanged (ints, pointers, implicitly shared values copied …) every
awaiter gets exactly the returned value. -/
theorem C05_all_awaiters (P : Prog σ V E) (hm : ∀ v, P.mv v = v) (ops) (d : Nat) (r : Res V E)
    (h : r ∈ gots d (exec P ops).log) : fins d (exec P ops).log = [r] := by
  rcases C05_delivered P ops d with ⟨_, h2⟩ | ⟨r0, h1, h2⟩
  · simp [h2] at h
  · rw [h2] at h
    simp only [List.mem_map] at h
    obtain ⟨n, _, h3⟩ := h
    rw [readN_id hm] at h3
    rw [h1, h3]

/-- C05 counterexample: two awaiters of the same Task; the second one receives the moved-from value. -/
theorem C05_later_awaiter_counterexample : fins 0 (exec demo demoTwoDone).log = [.val 5] ∧
    gots 0 (exec demo demoTwoDone).log = [.val 5, .val 0] := by decide

/-- C05/C06. What a body returns or throws is what the coroutine completes with. -/
theorem C05_completes_with_returned (P : Prog σ V E) (ops) (hu : (exec P ops).ub = none) (c : Nat) (st code)
    (hs : (exec P ops).stack = .body c :: st) (hc : ((exec P ops).coro c).code = some code) :
    let n := (codeNext P ((exec P ops).coro c).owned code ((exec P ops).coro c).inp).2
    (∀ v, n = .u (.ret v) → (exec P (ops ++ [.run])).log = (exec P ops).log ++ [.finished c (.val v)]) ∧
    (∀ e, n = .u (.throw e) → (exec P (ops ++ [.run])).log = (exec P ops).log ++ [.finished c (.exc e)]) := by
  have hi := (exec_inv P ops hu).i2.i1.core
  have hr : ((exec P ops).coro c).status = .running := (hi.bodyR c).1 (by simp [bodies, hs])
  have hf : ((exec P ops).coro c).freed = false := hi.notFreed (hi.statusLt (by simp [hr])) (by simp [hr])
  rw [exec_snoc]
  generalize exec P ops = s at *
  rw [step_run_body hu hs hf hc]
  intro n
  constructor
  · intro v hn; show (doAct P (actState P s c code) c n).log = _; rw [hn]; rfl
  · intro v hn; show (doAct P (actState P s c code) c n).log = _; rw [hn]; rfl

/-- C05/C06. What the trace records as delivered is what the awaiting body really receives: the step that delivers `r`
to `a` leaves `a` on top of the stack with `r` as its pending input. -/
theorem C05_delivered_to_body (P : Prog σ V E) (ops) (op : Op σ V E) (hu : (exec P ops).ub = none) (a d : Nat) (r : Res V E) (evs)
    (h : (exec P (ops ++ [op])).log = (exec P ops).log ++ evs)
    (he : .gotReady a d r ∈ evs ∨ .gotWoken a d r ∈ evs) :
    ((exec P (ops ++ [op])).coro a).inp = .res r ∧ ∃ st, (exec P (ops ++ [op])).stack = .body a :: st := by
  have hi := (exec_inv P ops hu).i2.i1.core
  rw [exec_snoc] at h ⊢
  generalize exec P ops = s at *
  cases step_cases P s op with
  | quiet evs' h' hq =>
    rw [h'] at h
    have := List.append_cancel_left h
    subst this
    rcases he with he | he <;> exact absurd (hq _ he) (by simp [evQ])
  | await c st code o priv hop hst hf hcode _ h' =>
    rw [h'] at h ⊢
    rcases awaitObj_cases P (actState P s c code) c o priv with ⟨u, h2⟩ | ⟨_, _, _, h2⟩ | ⟨d', _, hd, _, ⟨r', _, _, h2⟩ | ⟨hnd, hk, h2⟩ | ⟨hi', _, h2⟩⟩ <;>
      rw [h2] at h ⊢
    · have : s.log = s.log ++ evs := h
      have : evs = [] := by simpa using this
      subst this; simp at he
    · rw [hungState_log] at h
      have := List.append_cancel_left (as := s.log) h
      subst this; simp at he
    · rw [readyState_log] at h
      have := List.append_cancel_left (as := s.log) h
      subst this
      simp at he
      obtain ⟨rfl, rfl, rfl⟩ := he
      refine ⟨by simp [readyState, State.reply, State.emit, State.setCoro], st, ?_⟩
      exact hst
    · rw [regState_log] at h
      have := List.append_cancel_left (as := s.log) h
      subst this; simp at he
    · rw [lazyState_log] at h
      have := List.append_cancel_left (as := s.log) h
      subst this; simp at he
  | woken c st a' rest r' hop hst hf hfin ha hac h' =>
    rw [h'] at h ⊢
    have h3 : (wokenState P s c a' rest r').log = s.log ++ [.gotWoken a' c r'] := rfl
    rw [h3] at h
    have := List.append_cancel_left (as := s.log) h
    subst this
    simp at he
    obtain ⟨rfl, rfl, rfl⟩ := he
    exact ⟨by simp [wokenState, State.push, State.emit, State.setCoro], s.stack, rfl⟩

theorem readN_exc {P : Prog σ V E} {e : E} (n : Nat) : readN P n (.exc e) = .exc e := by
  induction n with
  | zero => rfl
  | succ n ih => simp only [readN, ih]; rfl

/-- C06. If a coroutine ends with an exception, every co_await on it, before or after, first or later, rethrows exactly
that exception. -/
theorem C06_exception_to_all (P : Prog σ V E) (ops) (d : Nat) (e : E) (h : fins d (exec P ops).log = [.exc e])
    (r : Res V E) (hr : r ∈ gots d (exec P ops).log) : r = .exc e := by
  rcases C05_delivered P ops d with ⟨h1, _⟩ | ⟨r0, h1, h2⟩
  · simp [h1] at h
  · rw [h1] at h; simp at h; subst h
    rw [h2] at hr
    simp only [List.mem_map] at hr
    obtain ⟨n, _, h3⟩ := hr
    rw [← h3]
    exact readN_exc n

/-- C06. An exception is never turned into a value, nor a value into an exception. -/
theorem C06_kind_preserved (P : Prog σ V E) (ops) (d : Nat) (e : E) (h : .exc e ∈ gots d (exec P ops).log) :
    fins d (exec P ops).log = [.exc e] := by
  rcases C05_delivered P ops d with ⟨_, h2⟩ | ⟨r0, h1, h2⟩
  · simp [h2] at h
  · rw [h2] at h
    simp only [List.mem_map] at h
    obtain ⟨n, _, h3⟩ := h
    rw [h1]
    have key : ∀ n, readN P n r0 = .exc e → r0 = .exc e := by
      intro n
      induction n with
      | zero => exact id
      | succ n ih =>
        intro h
        apply ih
        simp only [readN] at h
        cases hx : readN P n r0 with
        | val v => rw [hx] at h; simp [afterRead] at h
        | exc e' => rw [hx] at h; simpa [afterRead] using h
    rw [key n h3]

/-- C06. A body that exits by an exception: the coroutine completes with that exception. -/
theorem C06_completes_with_thrown (P : Prog σ V E) (ops) (hu : (exec P ops).ub = none) (c : Nat) (st code)
    (hs : (exec P ops).stack = .body c :: st) (hc : ((exec P ops).coro c).code = some code) (e : E)
    (hn : (codeNext P ((exec P ops).coro c).owned code ((exec P ops).coro c).inp).2 = .u (.throw e)) :
    fins c (exec P (ops ++ [.run])).log = [.exc e] := by
  have h := (C05_completes_with_returned P ops hu c st code hs hc).2 e hn
  rcases C05_delivered P (ops ++ [.run]) c with ⟨h1, _⟩ | ⟨r, h1, _⟩
  · rw [h] at h1; simp [fins] at h1
  · rw [h1]
    rw [h] at h1
    have : fins c ((exec P ops).log ++ [.finished c (.exc e)]) = fins c (exec P ops).log ++ [.exc e] := by simp [fins]
    rw [this] at h1
    have : fins c (exec P ops).log = [] := by
      cases hf : fins c (exec P ops).log with
      | nil => rfl
      | cons a b => rw [hf] at h1; have := congrArg List.length h1; simp at this
    rw [this] at h1
    simpa using h1.symm

example : gots 0 (exec demo (demoTwo ++ [.fire 0 (.exc 9)] ++ go 12)).log = [.exc 9, .exc 9] ∧
    fins 1 (exec demo (demoTwo ++ [.fire 0 (.exc 9)] ++ go 12)).log = [.exc 9] := by decide

/-! ### C07, C08 -/

theorem started_of_life {P : Prog σ V E} {c : Nat} (r : List (Ev V E)) (h : Chk (legal P) r.reverse)
    (h1 : life c r.reverse ≠ .unborn) (h2 : life c r.reverse ≠ .initial) : .started c ∈ r.reverse := by
  induction r with
  | nil => simp at h1
  | cons e r ih =>
    rw [List.reverse_cons] at h h1 h2 ⊢
    have hl := h r.reverse e [] rfl
    have ih := ih h.prefix
    rw [life_snoc] at h1 h2
    by_cases hx : life c r.reverse = .unborn ∨ life c r.reverse = .initial
    · cases e <;> simp only [lifeStep, legal] at hl h1 h2 <;> grind
    · have := ih (by grind) (by grind)
      simp [this]

theorem spawned_born {P : Prog σ V E} {c : Nat} {k} {l : List (Ev V E)} (h : Chk (legal P) l) (hs : .spawned c k ∈ l) :
    life c l ≠ .unborn := by
  obtain ⟨pre, post, h1, h2⟩ := h.mem hs
  have h3 : l = (pre ++ [.spawned c k]) ++ post := by rw [h1]; simp
  rw [h3] at h ⊢
  refine life_unborn_stays_le h ?_
  simp [lifeStep]

/-- In a legal trace a coroutine is spawned only once, so two decompositions at its creation coincide. -/
theorem spawned_unique {P : Prog σ V E} {c : Nat} {k k'} {l p q p' q' : List (Ev V E)} (h : Chk (legal P) l)
    (h1 : l = p ++ .spawned c k :: q) (h2 : l = p' ++ .spawned c k' :: q') : p = p' ∧ q = q' ∧ k = k' := by
  have hlen : p.length = p'.length := by
    apply Classical.byContradiction
    intro hne
    have key : ∀ {p q p' q' : List (Ev V E)} {k k'}, l = p ++ .spawned c k :: q → l = p' ++ .spawned c k' :: q' → ¬ p.length < p'.length := by
      intro p q p' q' k k' h1 h2 hlt
      have h3 := h p' _ q' h2
      have hmem : .spawned c k ∈ p' := by
        have e1 : l[p.length]? = some (.spawned c k) := by rw [h1]; simp
        rw [h2, List.getElem?_append_left hlt] at e1
        exact List.mem_of_getElem? e1
      have h4 : Chk (legal P) p' := by rw [h2] at h; exact h.prefix
      exact spawned_born h4 hmem h3
    rcases Nat.lt_or_gt_of_ne hne with hlt | hlt
    · exact key h1 h2 hlt
    · exact key h2 h1 hlt
  rw [h1] at h2
  obtain ⟨h3, h4⟩ := List.append_inj h2 hlen
  simp at h4
  exact ⟨h3, h4.2, h4.1⟩

/-- C07. A Task's body starts as part of the call: nothing happens between the call and the start of the body. -/
theorem C07_starts_at_call (P : Prog σ V E) (ops) (hu : (exec P ops).ub = none) (c : Nat) (pre post)
    (h : (exec P ops).log = pre ++ .spawned c .eager :: post) : ∃ post', post = .started c :: post' := by
  have hi := (exec_inv P ops hu).i2.i1.core
  have hL := exec_linv P ops
  have hmem : .spawned c .eager ∈ (exec P ops).log := by rw [h]; simp
  have hk := (hL.kd c .eager).1 hmem
  have hst : .started c ∈ (exec P ops).log := by
    have h1 := spawned_born hL.ok hmem
    have h2 : life c (exec P ops).log ≠ .initial := by
      intro hx; rw [hL.life] at hx
      have := hi.initL c hx; rw [hk.2] at this; simp at this
    simpa using started_of_life (exec P ops).log.reverse (by simpa using hL.ok) (by simpa using h1) (by simpa using h2)
  obtain ⟨p, q, h3, h4⟩ := hL.ok.mem hst
  rcases h4.2 with ⟨l, h5⟩ | ⟨l, a, h5, h6⟩
  · rw [h5] at h3
    have h7 : (exec P ops).log = l ++ .spawned c .eager :: (.started c :: q) := by rw [h3]; simp
    exact ⟨q, (spawned_unique hL.ok h h7).2.1⟩
  · exfalso
    have : .spawned c .lazy ∈ (exec P ops).log := by rw [h3]; simp [h6]
    have := ((hL.kd c .lazy).1 this).2
    rw [hk.2] at this; simp at this

/-- C07. The call is synchronous: when a call (from anywhere) creates coroutine `c`, `c` runs on top of the caller; and
whenever control is back at the caller's level, `c` is suspended or has completed. -/
theorem C07_runs_synchronously (P : Prog σ V E) (ops ops' : List (Op σ V E)) (hu : (exec P ops).ub = none)
    (hu' : (exec P (ops ++ ops')).ub = none) (c : Nat) (hnew : ∀ k, .spawned c k ∉ (exec P ops).log)
    (hc : .spawned c .eager ∈ (exec P (ops ++ ops')).log)
    (hback : (exec P (ops ++ ops')).stack = (exec P ops).stack) :
    (∃ d, life c (exec P (ops ++ ops')).log = .waitTask d) ∨ life c (exec P (ops ++ ops')).log = .waitNull ∨
    life c (exec P (ops ++ ops')).log = .waitExt ∨ life c (exec P (ops ++ ops')).log = .done := by
  have hi := (exec_inv P ops hu).i2.i1.core
  have hi' := (exec_inv P _ hu').i2.i1.core
  have hL := exec_linv P ops
  have hL' := exec_linv P (ops ++ ops')
  have hk := (hL'.kd c .eager).1 hc
  have h1 : (exec P ops).nc ≤ c := by
    apply Nat.le_of_not_lt; intro hlt
    exact hnew _ ((hL.kd c _).2 ⟨hlt, rfl⟩)
  have h2 : life c (exec P (ops ++ ops')).log ≠ .running := by
    rw [hL'.life]; intro hx
    have := (hi'.bodyR c).2 hx
    rw [hback] at this
    have := (hi.bodyR c).1 this
    rw [hi.corB c h1] at this; simp at this
  have h3 : life c (exec P (ops ++ ops')).log ≠ .initial := by
    rw [hL'.life]; intro hx
    have := hi'.initL c hx; rw [hk.2] at this; simp at this
  have h4 := spawned_born hL'.ok hc
  cases hx : life c (exec P (ops ++ ops')).log <;> simp_all

/-- C07/C08. A body starts at most once. -/
theorem C08_starts_at_most_once [DecidableEq V] [DecidableEq E] (P : Prog σ V E) (ops) (c : Nat) :
    (exec P ops).log.count (.started c) ≤ 1 := by
  have hL := exec_linv P ops
  refine once_of_legal hL.ok ?_
  intro pre post h hm
  have h1 := hL.ok pre _ post h
  have h2 : Chk (legal P) pre := by have := hL.ok; rw [h] at this; exact this.prefix
  obtain ⟨p, q, h3, h4⟩ := h2.mem hm
  have h5 : pre = (p ++ [.started c]) ++ q := by rw [h3]; simp
  rw [h5] at h2 h1
  refine life_started_stays h2 ?_ ?_ h1.1 <;> simp [lifeStep]

/-- C08. Until it is awaited, a LazyTask has not executed anything; once it has been awaited it has started. -/
theorem C08_lazy_started_iff_awaited (P : Prog σ V E) (ops) (hu : (exec P ops).ub = none) (c : Nat)
    (hs : .spawned c .lazy ∈ (exec P ops).log) :
    (regs c (exec P ops).log = [] ↔ life c (exec P ops).log = .initial) ∧
    (.started c ∈ (exec P ops).log ↔ regs c (exec P ops).log ≠ []) := by
  have hL := exec_linv P ops
  have hk := (hL.kd c .lazy).1 hs
  have key : .started c ∈ (exec P ops).log → regs c (exec P ops).log ≠ [] := by
    intro hm
    obtain ⟨p, q, h3, h4⟩ := hL.ok.mem hm
    rcases h4.2 with ⟨l, h5⟩ | ⟨l, a, h5, h6⟩
    · exfalso
      have : .spawned c .eager ∈ (exec P ops).log := by rw [h3, h5]; simp
      have := ((hL.kd c .eager).1 this).2
      rw [hk.2] at this; simp at this
    · rw [h3, h5]
      simp [regs]
  have h1 : regs c (exec P ops).log = [] ↔ life c (exec P ops).log = .initial := by
    constructor
    · intro h
      apply Classical.byContradiction
      intro hx
      refine key ?_ h
      have := started_of_life (exec P ops).log.reverse (by simpa using hL.ok) (by simpa using spawned_born hL.ok hs) (by simpa using hx)
      simpa using this
    · intro h; rw [hL.life] at h; exact exec_initial_regs P ops c h
  refine ⟨h1, key, ?_⟩
  intro h
  have hx : life c (exec P ops).log ≠ .initial := fun hx => h (h1.2 hx)
  have := started_of_life (exec P ops).log.reverse (by simpa using hL.ok) (by simpa using spawned_born hL.ok hs) (by simpa using hx)
  simpa using this

/-- C08. It starts as part of the first await: the awaiter has just suspended on it. -/
theorem C08_starts_at_await (P : Prog σ V E) (ops) (c : Nat) (pre post)
    (h : (exec P ops).log = pre ++ .started c :: post) (hs : .spawned c .lazy ∈ (exec P ops).log) :
    ∃ l a, pre = l ++ [.awaitReg a c] ∧ regs c l = [] := by
  have hL := exec_linv P ops
  have hk := (hL.kd c .lazy).1 hs
  have h4 := hL.ok pre _ post h
  rcases h4.2 with ⟨l, h5⟩ | ⟨l, a, h5, h6⟩
  · exfalso
    have : .spawned c .eager ∈ (exec P ops).log := by rw [h, h5]; simp
    have := ((hL.kd c .eager).1 this).2
    rw [hk.2] at this; simp at this
  · refine ⟨l, a, h5, ?_⟩
    -- at the time of the second-to-last event the coroutine had never been awaited
    suffices hgen : ∀ ops, ∀ l a post, (exec P ops).log = (l ++ [.awaitReg a c]) ++ .started c :: post → regs c l = [] by
      exact hgen ops l a post (by rw [h, h5])
    refine snoc_induction ?_ ?_
    · intro l a post h; simp [exec, init] at h
    · intro ops op ih l a post h
      rw [exec_snoc] at h
      cases step_cases P (exec P ops) op with
      | quiet evs h' hq =>
        rw [h'] at h
        -- the quiet events contain no awaitReg, so the pair lies in the old trace, or straddles its end
        rcases List.append_eq_append_iff.1 h with ⟨w, h1, h2⟩ | ⟨w, h1, h2⟩
        · rcases List.eq_nil_or_concat w with rfl | ⟨w', x, rfl⟩
          · simp at h1 h2
            have hl := (exec_linv P ops).ok
            have h8 : life c (exec P ops).log = .initial := by
              have h9 := (exec_linv P (ops ++ [op])).ok
              rw [exec_snoc, h', h2] at h9
              exact (h9 (exec P ops).log _ post rfl).1
            rw [(exec_linv P ops).life] at h8
            have := exec_initial_regs P ops c h8
            rw [← h1, regs_snoc] at this
            simp at this
          · rw [List.concat_eq_append, ← List.append_assoc] at h1
            have := (List.append_inj' h1 rfl).2
            simp at this; subst this
            have := hq (.awaitReg a c) (by rw [h2]; simp)
            simp [evQ] at this
        · cases w with
          | nil =>
            simp at h1 h2
            have hl := (exec_linv P ops).ok
            have h8 : life c (exec P ops).log = .initial := by
              have h9 := (exec_linv P (ops ++ [op])).ok
              rw [exec_snoc, h', ← h2] at h9
              exact (h9 (exec P ops).log _ post rfl).1
            rw [(exec_linv P ops).life] at h8
            have := exec_initial_regs P ops c h8
            rw [h1, regs_snoc] at this
            simp at this
          | cons x w =>
            simp at h2
            exact ih l a w (by rw [h1, h2.1])
      | await c' st code o priv hop hst hf hcode _ h' =>
        rw [h'] at h
        rcases awaitObj_cases P (actState P (exec P ops) c' code) c' o priv with ⟨u, h2⟩ | ⟨_, _, _, h2⟩ | ⟨d', _, hd, _, ⟨r', _, _, h2⟩ | ⟨hnd, hk, h2⟩ | ⟨hi', _, h2⟩⟩ <;>
          rw [h2] at h
        · exact ih l a post h
        · rw [hungState_log] at h
          rcases List.eq_nil_or_concat post with rfl | ⟨post', x, rfl⟩
          · have := (List.append_inj' h rfl).2; simp at this
          · rw [List.concat_eq_append, ← List.cons_append, ← List.append_assoc] at h
            exact ih l a post' (List.append_inj' h rfl).1
        · rw [readyState_log] at h
          rcases List.eq_nil_or_concat post with rfl | ⟨post', x, rfl⟩
          · have := (List.append_inj' h rfl).2; simp at this
          · rw [List.concat_eq_append, ← List.cons_append, ← List.append_assoc] at h
            exact ih l a post' (List.append_inj' h rfl).1
        · rw [regState_log] at h
          rcases List.eq_nil_or_concat post with rfl | ⟨post', x, rfl⟩
          · have := (List.append_inj' h rfl).2; simp at this
          · rw [List.concat_eq_append, ← List.cons_append, ← List.append_assoc] at h
            exact ih l a post' (List.append_inj' h rfl).1
        · rw [lazyState_log] at h
          have hh : (exec P ops).log ++ [Ev.awaitReg c' d', .started d'] = ((exec P ops).log ++ [Ev.awaitReg c' d']) ++ [.started d'] := by simp
          have h3 : ((exec P ops).log ++ [Ev.awaitReg c' d']) ++ [.started d'] = (l ++ [Ev.awaitReg a c]) ++ .started c :: post := by
            rw [← hh]; exact h
          rcases List.eq_nil_or_concat post with rfl | ⟨post', x, rfl⟩
          · obtain ⟨h4, h5⟩ := List.append_inj' h3 rfl
            obtain ⟨h6, h7⟩ := List.append_inj' h4 rfl
            simp at h7
            rw [← h6]
            refine exec_initial_regs P ops c ?_
            rw [← h7.2]
            have : (exec P ops).coro d' = (actState P (exec P ops) c' code).coro d' ∨ d' = c' := by
              by_cases hx : d' = c'
              · exact Or.inr hx
              · left; simp [actState, State.setCoro, hx]
            rcases this with h8 | h8
            · rw [h8]; exact hi'
            · subst h8
              simpa [actState, State.setCoro] using hi'
          · rw [List.concat_eq_append, ← List.cons_append, ← List.append_assoc] at h3
            have h4 := (List.append_inj' h3 rfl).1
            rcases List.eq_nil_or_concat post' with rfl | ⟨post'', y, rfl⟩
            · have := (List.append_inj' h4 rfl).2; simp at this
            · rw [List.concat_eq_append, ← List.cons_append, ← List.append_assoc] at h4
              exact ih l a post'' (List.append_inj' h4 rfl).1
      | woken c' st a' rest r' hop hst hf hfin ha hac h' =>
        rw [h'] at h
        have h3 : (wokenState P (exec P ops) c' a' rest r').log = (exec P ops).log ++ [.gotWoken a' c' r'] := rfl
        rw [h3] at h
        rcases List.eq_nil_or_concat post with rfl | ⟨post', x, rfl⟩
        · have := (List.append_inj' h rfl).2; simp at this
        · rw [List.concat_eq_append, ← List.cons_append, ← List.append_assoc] at h
          exact ih l a post' (List.append_inj' h rfl).1

example : let s := exec demo ([.main (.call .lazy 20 0 []), .main (.call .eager 10 0 [])] ++ go 10)
    s.log.take 6 = [.spawned 0 .lazy, .spawned 1 .eager, .started 1, .awaitReg 1 0, .started 0, .finished 0 (.val 7)] ∧
    s.ub = none ∧ s.stack = [] := by decide

/-! ### C09 -/

/-- C09. `isReady()` answers true exactly if the object is empty or its coroutine has completed at that moment. -/
theorem C09_isReady_truth (P : Prog σ V E) (ops) (o : Nat) (h : Option Nat) (b : Bool) (pre post)
    (hl : (exec P ops).log = pre ++ .ready o h b :: post) :
    b = true ↔ (h = none ∨ ∃ c, h = some c ∧ life c pre = .done) := by
  have := (exec_linv P ops).ok pre _ post hl
  cases h with
  | none => simp [this.1 rfl]
  | some c => simp [this.2 c rfl]

/-- C09. Once true, always true. -/
theorem C09_isReady_stays (P : Prog σ V E) (ops) (o o' c : Nat) (b : Bool) (pre mid post)
    (hl : (exec P ops).log = pre ++ .ready o (some c) true :: mid ++ .ready o' (some c) b :: post) : b = true := by
  have hok := (exec_linv P ops).ok
  have h1 := (C09_isReady_truth P ops o (some c) true pre (mid ++ .ready o' (some c) b :: post) (by rw [hl]; simp)).1 rfl
  have h2 : life c pre = .done := by simpa using h1
  refine (C09_isReady_truth P ops o' (some c) b (pre ++ .ready o (some c) true :: mid) post (by rw [hl])).2
    (Or.inr ⟨c, rfl, ?_⟩)
  refine life_done_stays (P := P) (l := pre) ?_ h2
  rw [hl] at hok
  exact hok.prefix

/-- C09. The answer concerns the coroutine the object holds, is what the caller gets, and asking changes nothing else. -/
theorem C09_isReady_reply (P : Prog σ V E) (ops) (hu : (exec P ops).ub = none) (who : Option Nat) (o : Nat)
    (ho : (exec P ops).usable false o = true) :
    let s := exec P ops
    ∃ b, doUser P s who (.isReady o) = (s.reply who (.flag b)).emit (.ready o (s.obj o).handle b) := by
  intro s
  have hi : Core s := (exec_inv P ops hu).i2.i1.core
  have ho' : s.usable false o = true := ho
  simp only [doUser, ho', if_true]
  cases hh : (s.obj o).handle with
  | none => exact ⟨_, rfl⟩
  | some c => 
    have := (hi.hOk o c hh).2.1
    simp only [this]
    exact ⟨_, rfl⟩

example : let s := exec demo (demoTwo ++ [.main (.isReady 0), .fire 0 (.val 5)] ++ go 12 ++ [.main (.isReady 0)])
    .ready 0 (some 0) false ∈ s.log ∧ .ready 0 (some 0) true ∈ s.log := by decide

/-! ### C10, C11 -/

theorem actState_coro_ne {P : Prog σ V E} {s : State σ V E} {c code i} (h : i ≠ c) : (actState P s c code).coro i = s.coro i := by
  simp [actState, State.setCoro, h]

/-- C10/C11. What `co_await o` does when performed by running coroutine `a`, in every reachable state:
* the task has completed → no suspension: `a` stays on top of the stack, gets the stored outcome;
* it has not → `a` suspends, is queued on it, and leaves the stack; a LazyTask is entered at once;
* the Task is empty → `a` hangs, nothing else changes. -/
theorem C10_await (P : Prog σ V E) (ops) (hu : (exec P ops).ub = none) (a o : Nat) (st code)
    (hs : (exec P ops).stack = .body a :: st) (hc : ((exec P ops).coro a).code = some code)
    (hact : (codeNext P ((exec P ops).coro a).owned code ((exec P ops).coro a).inp).2 = .u (.await o))
    (ho : (exec P ops).usable false o = true) :
    let s := exec P ops
    let s' := exec P (ops ++ [.run])
    (∀ d, (s.obj o).handle = some d → life d s.log = .done →
      ∃ r, s'.log = s.log ++ [.gotReady a d r] ∧ s'.stack = s.stack ∧ (s'.coro a).inp = .res r ∧ s'.ub = none) ∧
    (∀ d, (s.obj o).handle = some d → life d s.log ≠ .done → (s.obj o).kind = .eager →
      s'.log = s.log ++ [.awaitReg a d] ∧ s'.stack = st ∧ life a s'.log = .waitTask d ∧ s'.ub = none) ∧
    (∀ d, (s.obj o).handle = some d → life d s.log = .initial → (s.obj o).kind = .lazy →
      s'.log = s.log ++ [.awaitReg a d, .started d] ∧ s'.stack = .body d :: st ∧ life a s'.log = .waitTask d ∧ s'.ub = none) ∧
    ((s.obj o).handle = none → (s.obj o).kind = .eager →
      s'.log = s.log ++ [.hung a] ∧ s'.stack = st ∧ life a s'.log = .waitNull ∧ s'.ub = none ∧
      ∀ i, i ≠ a → s'.coro i = s.coro i) := by
  have hi := (exec_inv P ops hu).i2.i1.core
  have hr : ((exec P ops).coro a).status = .running := (hi.bodyR a).1 (by simp [bodies, hs])
  have hf : ((exec P ops).coro a).freed = false := hi.notFreed (hi.statusLt (by simp [hr])) (by simp [hr])
  have hL := exec_linv P ops
  intro s s'
  have hL' : ∀ c, life c s'.log = (s'.coro c).status := (exec_linv P (ops ++ [.run])).life
  have hs' : s' = awaitObj P (actState P s a code) a o false := by
    have : s' = step P s .run := exec_snoc _ _ _
    rw [this, step_run_body hu hs hf hc, hact]; rfl
  have ha2 : ∀ d, (s.obj o).handle = some d → (s.coro d).freed = false ∧ (s.coro d).kind = (s.obj o).kind := fun d hd => (hi.hOk o d hd).2
  have hsL : ∀ d, life d s.log = (s.coro d).status := hL.life
  have hAst : ∀ i, ((actState P s a code).coro i).status = (s.coro i).status := by
    intro i; simp only [actState, State.setCoro]; split
    · rename_i h; subst h; rfl
    · rfl
  have hres : ∀ d, (s.coro d).status = .done → ∃ r, (s.coro d).result = some r := by
    intro d hd
    have := (hi.resD d).2 hd
    exact Option.isSome_iff_exists.1 this
  have hcase := awaitObj_cases P (actState P s a code) a o false
  rw [← hs'] at hcase
  have hnofail : ∀ d u, (s.obj o).handle = some d → ((s.coro d).status = .done ∨ (s.obj o).kind = .eager ∨ (s.coro d).status = .initial) →
      s' ≠ (actState P s a code).fail u := by
    intro d u hd hk hx
    rw [hs'] at hx
    have hx2 : (awaitObj P (actState P s a code) a o false).ub = some u := by rw [hx]; rfl
    unfold awaitObj at hx2
    rw [if_pos (show (actState P s a code).usable false o = true from ho)] at hx2
    have hd' : ((actState P s a code).obj o).handle = some d := hd
    have hfd : ((actState P s a code).coro d).freed = false := by
      simp only [actState, State.setCoro]; split
      · rename_i h; subst h; exact hf
      · exact (ha2 d hd).1
    rw [hd'] at hx2
    simp only [hfd, Bool.false_eq_true, if_false, hAst] at hx2
    split at hx2
    · rename_i hdn
      have hda : d ≠ a := by rintro rfl; rw [hr] at hdn; simp at hdn
      obtain ⟨r, hr'⟩ := hres d hdn
      rw [actState_coro_ne hda, hr'] at hx2
      simp only [State.reply, State.emit, State.setCoro, actState] at hx2
      rw [show s.ub = none from hu] at hx2; simp at hx2
    · rename_i hdn
      split at hx2
      · simp only [State.emit, State.setCoro, State.pop, actState] at hx2
        rw [show s.ub = none from hu] at hx2; simp at hx2
      · rename_i hk'
        split at hx2
        · simp only [State.emit, State.setCoro, State.pop, State.push, actState] at hx2
          rw [show s.ub = none from hu] at hx2; simp at hx2
        · rename_i hin
          have hk'' : (s.obj o).kind = .lazy := hk'
          rw [hk''] at hk; simp [hdn, hin] at hk
  refine ⟨?_, ?_, ?_, ?_⟩
  · intro d hd hdn
    rw [hsL] at hdn
    rcases hcase with ⟨u, h2⟩ | ⟨_, h3, _, h2⟩ | ⟨d', _, hd', _, ⟨r', _, _, h2⟩ | ⟨hnd, hk, h2⟩ | ⟨hi', _, h2⟩⟩
    · exact absurd h2 (hnofail d u hd (Or.inl hdn))
    · have h3 : (s.obj o).handle = none := h3
      rw [hd] at h3; simp at h3
    · have h3 : (s.obj o).handle = some d' := hd'
      rw [hd] at h3; simp at h3; subst h3
      refine ⟨r', ?_, ?_, ?_, ?_⟩
      · rw [h2, readyState_log]; rfl
      · rw [h2]; rfl
      · rw [h2]; simp [readyState, State.reply, State.emit, State.setCoro]
      · rw [h2]; exact hu
    · have h3 : (s.obj o).handle = some d' := hd'
      rw [hd] at h3; simp at h3; subst h3
      rw [hAst] at hnd; exact absurd hdn hnd
    · have h3 : (s.obj o).handle = some d' := hd'
      rw [hd] at h3; simp at h3; subst h3
      rw [hAst, hdn] at hi'; simp at hi'
  · intro d hd hdn hk
    rw [hsL] at hdn
    rcases hcase with ⟨u, h2⟩ | ⟨_, h3, _, h2⟩ | ⟨d', _, hd', _, ⟨r', hnd, _, h2⟩ | ⟨hnd, hk, h2⟩ | ⟨hi', hk', h2⟩⟩
    · exact absurd h2 (hnofail d u hd (Or.inr (Or.inl hk)))
    · have h3 : (s.obj o).handle = none := h3
      rw [hd] at h3; simp at h3
    · have h3 : (s.obj o).handle = some d' := hd'
      rw [hd] at h3; simp at h3; subst h3
      rw [hAst] at hnd; exact absurd hnd hdn
    · have h3 : (s.obj o).handle = some d' := hd'
      rw [hd] at h3; simp at h3; subst h3
      refine ⟨?_, ?_, ?_, ?_⟩
      · rw [h2, regState_log]; rfl
      · rw [h2]; simp [regState, State.pop, State.emit, State.setCoro, actState]; rw [show s.stack = _ from hs]; rfl
      · rw [hL', h2]; simp [regState, State.pop, State.emit, State.setCoro]
      · rw [h2]; exact hu
    · have hk' : (s.obj o).kind = .lazy := hk'
      rw [hk] at hk'; simp at hk'
  · intro d hd hdn hk
    rw [hsL] at hdn
    rcases hcase with ⟨u, h2⟩ | ⟨_, h3, _, h2⟩ | ⟨d', _, hd', _, ⟨r', hnd, _, h2⟩ | ⟨hnd, hk', h2⟩ | ⟨hi', hk', h2⟩⟩
    · exact absurd h2 (hnofail d u hd (Or.inr (Or.inr hdn)))
    · have h3 : (s.obj o).handle = none := h3
      rw [hd] at h3; simp at h3
    · have h3 : (s.obj o).handle = some d' := hd'
      rw [hd] at h3; simp at h3; subst h3
      rw [hAst, hdn] at hnd; simp at hnd
    · have hk' : (s.obj o).kind = .eager := hk'
      rw [hk] at hk'; simp at hk'
    · have h3 : (s.obj o).handle = some d' := hd'
      rw [hd] at h3; simp at h3; subst h3
      refine ⟨?_, ?_, ?_, ?_⟩
      · rw [h2, lazyState_log]; rfl
      · rw [h2]; simp [lazyState, State.pop, State.push, State.emit, State.setCoro, actState]; rw [show s.stack = _ from hs]; rfl
      · rw [hL', h2]; simp [lazyState, State.pop, State.push, State.emit, State.setCoro]
      · rw [h2]; exact hu
  · intro hh hk
    have h2 : s' = hungState (actState P s a code) a := by
      rw [hs']; unfold awaitObj; rw [if_pos (show (actState P s a code).usable false o = true from ho)]
      have h3 : ((actState P s a code).obj o).handle = none := hh
      have h4 : ((actState P s a code).obj o).kind = .eager := hk
      rw [h3, h4]; rfl
    refine ⟨?_, ?_, ?_, ?_, ?_⟩
    · rw [h2, hungState_log]; rfl
    · rw [h2]; simp [hungState, State.pop, State.emit, State.setCoro, actState]; rw [show s.stack = _ from hs]; rfl
    · rw [hL', h2]; simp [hungState, State.pop, State.emit, State.setCoro]
    · rw [h2]; exact hu
    · intro i hia
      rw [h2]; simp [hungState, State.pop, State.emit, State.setCoro, actState, hia]

/-- C10, as seen in the trace: an await completes at once only on a completed coroutine and suspends only on an
unfinished one. -/
theorem C10_trace (P : Prog σ V E) (ops) (a d : Nat) (pre post) :
    (∀ r, (exec P ops).log = pre ++ .gotReady a d r :: post → life d pre = .done) ∧
    ((exec P ops).log = pre ++ .awaitReg a d :: post → life d pre ≠ .done ∧ life d pre ≠ .unborn) := by
  refine ⟨fun r h => ((exec_linv P ops).ok pre _ post h).2.1, fun h => ?_⟩
  have := (exec_linv P ops).ok pre _ post h
  exact ⟨this.2.2.1, this.2.1⟩

example : .gotReady 1 0 (.val 7) ∈ (exec demo ([.main (.call .eager 20 0 [])] ++ go 3 ++ [.main (.call .eager 10 0 [])] ++ go 3)).log ∧
    .awaitReg 1 0 ∈ (exec demo demoTwo).log := by decide

/-- C11. A coroutine that awaits an empty Task never runs again: no schedule resumes, completes or destroys it. -/
theorem C11_null_await_hangs (P : Prog σ V E) (ops ops' : List (Op σ V E)) (a : Nat)
    (h : .hung a ∈ (exec P ops).log) :
    life a (exec P (ops ++ ops')).log = .waitNull ∧ .destroyed a ∉ (exec P (ops ++ ops')).log ∧
    (∀ r, .finished a r ∉ (exec P (ops ++ ops')).log) := by
  obtain ⟨evs, he⟩ := exec_log P ops ops'
  have hok := (exec_linv P (ops ++ ops')).ok
  have hm : .hung a ∈ (exec P (ops ++ ops')).log := by rw [he]; simp [h]
  obtain ⟨pre, post, h1, h2⟩ := hok.mem hm
  have h3 : (exec P (ops ++ ops')).log = (pre ++ [.hung a]) ++ post := by rw [h1]; simp
  have hl : life a (exec P (ops ++ ops')).log = .waitNull := by
    rw [h3] at hok ⊢
    exact life_null_stays hok (by simp [lifeStep])
  refine ⟨hl, ?_, ?_⟩
  · intro hd
    obtain ⟨p, q, h4, h5⟩ := hok.mem hd
    rw [h4] at hok
    have := life_done_stays hok h5.1
    rw [← h4, hl] at this; simp at this
  · intro r hd
    obtain ⟨p, q, h4, h5⟩ := hok.mem hd
    have h6 : (exec P (ops ++ ops')).log = (p ++ [.finished a r]) ++ q := by rw [h4]; simp
    rw [h6] at hok
    have := life_done_stays hok (c := a) (by simp [lifeStep])
    rw [← h6, hl] at this; simp at this

example : .hung 0 ∈ (exec demo [.main (.mkNull .eager), .main (.call .eager 10 0 []), .run]).log := by decide

/-! ### C12 -/

/-- C12. Move construction: the new object holds what the source held, the source is empty, no other object and no
coroutine (hence no reference count) is touched, nothing observable happens. -/
theorem C12_move_construct (P : Prog σ V E) (s : State σ V E) (src : Nat) (h : s.usable false src = true) (hb : src < s.no) :
    let s' := doUser P s none (.moveNew src)
    (s'.obj s.no).handle = (s.obj src).handle ∧ (s'.obj s.no).alive = true ∧ (s'.obj s.no).kind = (s.obj src).kind ∧
    (s'.obj src).handle = none ∧ (s'.obj src).alive = true ∧
    (∀ o, o ≠ src → o ≠ s.no → s'.obj o = s.obj o) ∧ s'.coro = s.coro ∧ s'.log = s.log ∧ s'.stack = s.stack ∧ s'.ub = s.ub := by
  have ha : (s.obj src).alive = true := by simp [State.usable] at h; exact h.1
  have hne : src ≠ s.no := by omega
  simp only [doUser, h, if_true, moveObj, State.reply, State.setObj]
  refine ⟨?_, ?_, ?_, ?_, ?_, ?_, by trivial, by trivial, by trivial, by trivial⟩
  · simp
  · simp
  · simp
  · simp [hne]
  · simp [hne, ha]
  · intro o h1 h2; simp [h1, h2]

/-- C12. Self-move-assignment does nothing. -/
theorem C12_self_move (P : Prog σ V E) (s : State σ V E) (o : Nat) (h : s.usable false o = true) :
    doUser P s none (.moveAssign o o) = s := by
  simp [doUser, h, State.reply]

/-- C12. Move assignment, first half: the old coroutine of the destination loses this reference (and is freed if that
was the last), no other object changes. -/
theorem C12_move_assign_release (P : Prog σ V E) (s : State σ V E) (dst src : Nat) (h1 : s.usable false dst = true)
    (h2 : s.usable false src = true) (hk : (s.obj dst).kind = (s.obj src).kind) (hne : dst ≠ src) :
    let s' := doUser P s none (.moveAssign dst src)
    (s'.obj dst).handle = none ∧ (∀ o, o ≠ dst → s'.obj o = s.obj o) ∧
    (∀ i, (s'.coro i).status = (s.coro i).status ∧ (s'.coro i).code = (s.coro i).code) ∧
    (∀ c, (s.obj dst).handle = some c → (s.coro c).freed = false → ∀ n, (s.coro c).rc = n + 2 →
      (s'.coro c).rc = n + 1 ∧ (s'.coro c).freed = false ∧ s'.stack = .assign dst src :: s.stack) ∧
    (∀ c, (s.obj dst).handle = some c → (s.coro c).freed = false → (s.coro c).rc = 1 → (s.coro c).status ≠ .running →
      (s'.coro c).freed = true ∧ s'.log = s.log ++ [.destroyed c]) ∧
    ((s.obj dst).handle = none → s'.stack = .assign dst src :: s.stack ∧ s'.log = s.log) := by
  intro s'
  have hs' : s' = match (s.obj dst).handle with
        | none => s.push (.assign dst src)
        | some c => deref ((s.setObj dst { s.obj dst with handle := none }).push (.assign dst src)) c := by
    simp [s', doUser, h1, h2, hk, hne, State.reply]
    rfl
  clear_value s'
  have key : ∀ (t : State σ V E) c, (deref t c).obj = t.obj ∧ ∀ i, ((deref t c).coro i).status = (t.coro i).status ∧ ((deref t c).coro i).code = (t.coro i).code := by
    intro t c
    unfold deref
    split
    · exact ⟨rfl, fun _ => ⟨rfl, rfl⟩⟩
    · split
      · exact ⟨rfl, fun _ => ⟨rfl, rfl⟩⟩
      · split
        · exact ⟨rfl, fun _ => ⟨rfl, rfl⟩⟩
        · refine ⟨rfl, fun i => ?_⟩
          simp only [State.push, State.emit, State.setCoro]
          split
          · rename_i h; subst h; exact ⟨rfl, rfl⟩
          · exact ⟨rfl, rfl⟩
      · refine ⟨rfl, fun i => ?_⟩
        simp only [State.setCoro]
        split
        · rename_i h; subst h; exact ⟨rfl, rfl⟩
        · exact ⟨rfl, rfl⟩
  cases hh : (s.obj dst).handle with
  | none =>
    rw [hh] at hs'
    subst hs'
    refine ⟨hh, fun _ _ => rfl, fun _ => ⟨rfl, rfl⟩, by simp, by simp, fun _ => ⟨rfl, rfl⟩⟩
  | some c =>
    rw [hh] at hs'
    subst hs'
    refine ⟨?_, ?_, ?_, ?_, ?_, by simp⟩
    · simp only [(key _ c).1]; simp [State.push, State.setObj]
    · intro o ho; simp only [(key _ c).1]; simp [State.push, State.setObj, ho]
    · intro i; exact (key _ c).2 i
    · intro c' hc' hfr n hn
      simp at hc'; subst hc'
      simp [deref, State.push, State.setObj, hfr, hn, State.setCoro]
    · intro c' hc' hfr hn hrun
      simp at hc'; subst hc'
      simp [deref, State.push, State.setObj, hfr, hn, State.setCoro, State.emit, hrun]

/-- C12. Move assignment, second half: the destination now holds what the source holds, the source is empty, nothing
else changes. -/
theorem C12_move_assign_transfer (P : Prog σ V E) (s : State σ V E) (hu : s.ub = none) (dst src : Nat) (st) (hs : s.stack = .assign dst src :: st)
    (h1 : s.usable false dst = true) (h2 : s.usable false src = true) (hne : dst ≠ src) :
    let s' := step P s .run
    (s'.obj dst).handle = (s.obj src).handle ∧ (s'.obj src).handle = none ∧
    (∀ o, o ≠ dst → o ≠ src → s'.obj o = s.obj o) ∧ s'.coro = s.coro ∧ s'.log = s.log ∧ s'.stack = st ∧ s'.ub = none := by
  intro s'
  have h : (s.pop.usable false dst && s.pop.usable false src) = true := by
    simp only [Bool.and_eq_true]; exact ⟨h1, h2⟩
  have hs' : s' = ((s.pop.setObj dst { s.obj dst with handle := (s.obj src).handle }).setObj src { s.obj src with handle := none }) := by
    have hs'' : s' = run P s := by simp [s', step, hu]
    rw [hs'']; unfold run; rw [hs]; dsimp only; rw [if_pos h]
    have : src ≠ dst := Ne.symm hne
    simp [State.setObj, State.pop, this]
  rw [hs']
  refine ⟨?_, ?_, ?_, rfl, rfl, ?_, hu⟩
  · simp [State.setObj, hne]
  · simp [State.setObj]
  · intro o ho1 ho2; simp [State.setObj, State.pop, ho1, ho2]
  · simp [State.setObj, State.pop, hs]

/-- Moving a Task whose coroutine others await and that is still running, then assigning over it. -/
example : let s := exec demo (demoTwo ++ [.main (.moveNew 0), .main (.mkNull .eager), .main (.moveAssign 4 3), .run])
    (s.obj 0).handle = none ∧ (s.obj 3).handle = none ∧ (s.obj 4).handle = some 0 ∧ s.ub = none ∧ s.stack = [] := by decide

end QCoro.Task
