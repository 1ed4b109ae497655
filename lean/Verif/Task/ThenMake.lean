import Verif.Util.Basic
import Verif.Task.ThenInv

/-! How continuations come into being. -/
namespace QCoro.Task
variable {σ V E : Type}

/-- In state `s` the schedule item `op` makes `who` (`none`: the main program or an event handler; `some c`: coroutine
`c`, possibly inside a callback) perform API action `a`. -/
def Performs (P : Prog σ V E) (s : State σ V E) (op : Op σ V E) (who : Option Nat) (a : UAct σ V E) : Prop :=
  s.ub = none ∧
  ((who = none ∧ op = .main a ∧ s.mayAct = true) ∨
   ∃ c st code, who = some c ∧ op = .run ∧ s.stack = .body c :: st ∧ (s.coro c).freed = false ∧ (s.coro c).code = some code ∧
     (codeNext P (s.coro c).owned code (s.coro c).inp).2 = .u a)

/-- In state `s`, `op` makes a continuation: number `t`, with callbacks `cfg`, by the rvalue overload or not, of kind
`k`, on a Task that holds `h`. -/
inductive Makes (P : Prog σ V E) (s : State σ V E) (op : Op σ V E) : Nat → ThenCfg σ → Bool → Kind → Option Nat → Prop
  /-- `o.then(cb, err)` on an lvalue -/
  | thenL (who o cfg) (h : Performs P s op who (.thenL o cfg)) : Makes P s op s.nc cfg.plain false (thenKind cfg (s.obj o).kind) (s.obj o).handle
  /-- `std::move(o).then(cb, err)` -/
  | thenR (who o cfg) (h : Performs P s op who (.thenR o cfg)) : Makes P s op s.nc cfg.plain true (thenKind cfg (s.obj o).kind) (s.obj o).handle
  /-- `QCoro::connect(std::move(o), q, f)` -/
  | connect (who o q f) (h : Performs P s op who (.connect o q f)) : Makes P s op s.nc ⟨f, none, none, some q⟩ false .eager (s.obj o).handle

theorem Performs.step {P : Prog σ V E} {s : State σ V E} {op who a} (h : Performs P s op who a) :
    ∃ s1 : State σ V E, Task.step P s op = doUser P s1 who a ∧ s1.log = s.log ∧ s1.obj = s.obj ∧ s1.nc = s.nc ∧ s1.no = s.no ∧
      s1.stack = s.stack ∧ (∀ c, who = some c → ∃ st, s.stack = .body c :: st) ∧ s1.nw = s.nw ∧ s1.wctx = s.wctx := by
  obtain ⟨hu, ⟨rfl, rfl, hl⟩ | ⟨c, st, code, rfl, rfl, hst, hf, hc, ha⟩⟩ := h
  · exact ⟨s, by simp [Task.step, hu, hl], rfl, rfl, rfl, rfl, rfl, by simp, rfl, rfl⟩
  · refine ⟨actState P s c code, ?_, rfl, rfl, rfl, rfl, rfl, ?_, rfl, rfl⟩
    · rw [step_run_body hu hst hf hc, ha]; rfl
    · rintro c' ⟨⟩; exact ⟨st, hst⟩

/-- What happens at a schedule item is determined. -/
theorem Performs.unique {P : Prog σ V E} {s : State σ V E} {op who a who' a'} (h : Performs P s op who a) (h' : Performs P s op who' a') : a = a' := by
  obtain ⟨_, ⟨_, rfl, _⟩ | ⟨c, st, code, _, rfl, hst, _, hc, ha⟩⟩ := h
  · obtain ⟨_, ⟨_, e, _⟩ | ⟨_, _, _, _, e, _⟩⟩ := h'
    · cases e; rfl
    · cases e
  · obtain ⟨_, ⟨_, e, _⟩ | ⟨c', st', code', _, _, hst', _, hc', ha'⟩⟩ := h'
    · cases e
    · rw [hst] at hst'; cases hst'
      rw [hc] at hc'; cases hc'
      rw [ha] at ha'; cases ha'; rfl

/-- Continuation `t` has been started and has not done anything yet. -/
def AtStart (t : Nat) (log : List (Ev V E)) : Prop := life t log = .running ∧ hist t log = []

/-- The continuation that `op` makes after `ops` awaits, in the run that goes on with `ops'`, the coroutine that the Task held when `then`
was called.  That is so if `then` was called on an rvalue (the continuation has taken the Task), if the continuation is not lazy
(it awaits at once); otherwise, when the continuation starts, the variable on which `then` was called must still hold it. -/
def Same (P : Prog σ V E) (ops : List (Op σ V E)) (op : Op σ V E) (ops' : List (Op σ V E)) (t : Nat) (rv : Bool) (k : Kind) (h : Option Nat) : Prop :=
  rv = true ∨ k = .eager ∨ ∃ who o cfg, Performs P (exec P ops) op who (.thenL o cfg) ∧
    ∀ p q, ops' = p ++ q → AtStart t (exec P (ops ++ op :: p)).log → ((exec P (ops ++ op :: p)).obj o).handle = h

/-- A coroutine that does not exist yet has no history. -/
theorem hist_unborn {P : Prog σ V E} {s : State σ V E} (hL : LInv P s) {t} (h : life t s.log = .unborn) : hist t s.log = [] := by
  rw [hist, List.filterMap_eq_nil_iff]
  intro e he
  obtain ⟨pre, post, h3, h4⟩ := hL.ok.mem he
  apply Classical.byContradiction
  intro hn
  have h5 := hL.ok
  rw [h3] at h5 h
  refine life_unborn_stays_le h5 (c := t) ?_ h
  cases e <;> simp only [hev] at hn <;> first | (exact absurd trivial hn) | (exact absurd rfl hn) | skip
  all_goals
    split at hn
    · rename_i hx; subst hx
      simp only [legal] at h4
      grind
    · exact absurd rfl hn

/-- The new coroutine right after `spawn`. -/
theorem spawn_new (P : Prog σ V E) (s : State σ V E) (k code ps v own) :
    ((spawn P s k code ps v own).coro s.nc).code = some code ∧ ((spawn P s k code ps v own).coro s.nc).owned = ps ∧
    ((spawn P s k code ps v own).coro s.nc).kind = k ∧
    ((spawn P s k code ps v own).coro s.nc).status = (match k with | .eager => .running | .lazy => .initial) ∧
    (k = .eager → (spawn P s k code ps v own).stack = .body s.nc :: s.stack) ∧
    (∀ o, o ≠ s.no → (spawn P s k code ps v own).obj o = s.obj o) ∧
    (spawn P s k code ps v own).nc = s.nc + 1 ∧ (spawn P s k code ps v own).no = s.no + 1 ∧
    hist s.nc (spawn P s k code ps v own).log = hist s.nc s.log := by
  have hk : hist s.nc (spawn P s k code ps v own).log = hist s.nc s.log := by
    unfold spawn; cases k
    · show hist s.nc ((s.log ++ [_]) ++ [_]) = _
      rw [hist_snoc, hist_snoc]; simp [hev]
    · show hist s.nc (s.log ++ [_]) = _
      rw [hist_snoc]; simp [hev]
  refine ⟨?_, ?_, ?_, ?_, ?_, ?_, ?_, ?_, hk⟩ <;> unfold spawn <;> cases k <;> simp [State.push, State.emit, State.setCoro, State.setObj]
  all_goals (intro o h1 h2; exact absurd h2 h1)

theorem spawn_TI {P : Prog σ V E} {b : State σ V E} {k oo cfg rv h v own} (B : Prop) (hh : hist b.nc b.log = []) (hlt : oo < b.no)
    (hob : (b.obj oo).handle = h) (hp : rv = true → (b.obj oo).owner = .param b.nc)
    (hI' : Inv (spawn P b k (.thenC oo cfg .init) (if rv then [oo] else []) v own)) :
    TI P b.nc oo cfg rv k h B (spawn P b k (.thenC oo cfg .init) (if rv then [oo] else []) v own) ∧
      ((spawn P b k (.thenC oo cfg .init) (if rv then [oo] else []) v own).coro b.nc).status ≠ .done := by
  obtain ⟨a1, a2, a3, a4, a5, a6, a7, a8, a9⟩ := spawn_new P b k (.thenC oo cfg .init) (if rv then [oo] else []) v own
  generalize hs : spawn P b k (.thenC oo cfg .init) (if rv then [oo] else []) v own = s' at *
  have hobj := a6 oo (by omega)
  refine ⟨⟨by omega, ⟨.init, a1, .inr ⟨by rw [a9, hh], ?_⟩, ?_⟩, a2, a3, ?_, ?_⟩, by rw [a4]; cases k <;> simp⟩
  · rw [a4]; cases k <;> simp
  · intro _ hr
    rw [a4] at hr
    cases k with
    | lazy => simp at hr
    | eager => exact ⟨⟨_, a5 rfl⟩, fun _ => by rw [hobj, hob]⟩
  · intro hrv
    exact ⟨by omega, by rw [hobj]; exact hp hrv, fun _ => by rw [hobj, hob]⟩
  · intro ph _ hi
    have := hI'.i2.i1.core.initL _ hi
    rw [a3] at this; exact this

/-- A new continuation satisfies the invariant. -/
theorem makes_TI {P : Prog σ V E} {s : State σ V E} {op t cfg rv k h} (B : Prop) (hI : Inv s) (hL : LInv P s) (hm : Makes P s op t cfg rv k h)
    (hu' : (Task.step P s op).ub = none) :
    t = s.nc ∧ (cfg.guard.isSome = true → cfg.cbTask = none) ∧ ∃ oo, (∀ who o cfg', Performs P s op who (.thenL o cfg') → o = oo) ∧
      TI P t oo cfg rv k h B (Task.step P s op) ∧ ((Task.step P s op).coro t).status ≠ .done := by
  have hI' : Inv (Task.step P s op) := by
    have hu : s.ub = none := by cases hm <;> (rename_i hp; exact hp.1)
    rcases step_inv P hI hu op with ⟨_, h⟩ | ⟨u, h, _⟩
    · exact h
    · rw [hu'] at h; simp at h
  have hco := hI.i2.i1.core
  have hun : hist s.nc s.log = [] := hist_unborn hL (by rw [hL.life, hco.corB _ (Nat.le_refl _)])
  cases hm with
  | thenL who o cfg hp =>
    refine ⟨rfl, by simp [ThenCfg.plain], o, fun _ _ _ hp' => by have := hp.unique hp'; simp at this; exact this.1.symm, ?_⟩
    obtain ⟨s1, hs, hl, ho, hnc, hno, hstk, hw, _⟩ := hp.step
    rw [hs] at hu' hI' ⊢
    simp only [doUser] at hu' hI' ⊢
    split at hu'
    · rename_i hx; rw [if_pos hx] at hI' ⊢
      have hlt : o < s.no := hco.aliveLt (by simp [State.usable] at hx; rw [← ho]; exact hx.1)
      have := spawn_TI B (rv := false) (h := (s.obj o).handle) (b := (s1.emit (.thenMade s1.nc (s1.obj o).handle (cfg.plain.info false))).reply who (.obj s1.no)) ?_ ?_ ?_ ?_ hI'
      · simpa [State.emit, hnc, ho] using this
      · rw [reply_log, reply_nc]; show hist s1.nc (s1.log ++ [_]) = _; rw [hist_snoc, hl, hnc, hun]; simp [hev]
      · rw [reply_no]; show o < s1.no; omega
      · rw [reply_obj]; show (s1.obj o).handle = _; rw [ho]
      · simp
    · simp [State.fail] at hu'
  | connect who o q f hp =>
    refine ⟨rfl, by simp, o, fun _ _ _ hp' => by have := hp.unique hp'; simp at this, ?_⟩
    obtain ⟨s1, hs, hl, ho, hnc, hno, hstk, hw, _⟩ := hp.step
    rw [hs] at hu' hI' ⊢
    simp only [doUser] at hu' hI' ⊢
    split at hu'
    · rename_i hx; rw [if_pos hx] at hI' ⊢
      have hlt : o < s.no := hco.aliveLt (by simp [State.usable] at hx; rw [← ho]; exact hx.1.1)
      have := spawn_TI B (rv := false) (h := (s.obj o).handle) ?_ ?_ ?_ ?_ hI'
      · simpa [State.emit, State.push, hnc, ho] using this
      · show hist (State.reply _ who _).nc (State.reply _ who _).log = _
        rw [reply_log, reply_nc]; show hist s1.nc (s1.log ++ [_]) = _; rw [hist_snoc, hl, hnc, hun]; simp [hev]
      · show o < (State.reply _ who _).no
        rw [reply_no]; show o < s1.no; omega
      · show ((State.reply _ who _).obj o).handle = _
        rw [reply_obj]; show (s1.obj o).handle = _; rw [ho]
      · simp
    · simp [State.fail] at hu'
  | thenR who o cfg hp =>
    refine ⟨rfl, by simp [ThenCfg.plain], s.no, fun _ _ _ hp' => by have := hp.unique hp'; simp at this, ?_⟩
    obtain ⟨s1, hs, hl, ho, hnc, hno, hstk, hw, _⟩ := hp.step
    rw [hs] at hu' hI' ⊢
    simp only [doUser] at hu' hI' ⊢
    split at hu'
    · rename_i hx; rw [if_pos hx] at hI' ⊢
      rw [← hno, ← hnc]
      have := spawn_TI B (rv := true) (h := (s.obj o).handle) ?_ ?_ ?_ ?_ hI'
      · simpa [State.emit, moveObj, State.setObj, ho] using this
      · rw [reply_log, reply_nc]; show hist s1.nc (s1.log ++ [_]) = _; rw [hist_snoc, hl, hnc, hun]; simp [hev]
      · rw [reply_no]; show s1.no < s1.no + 1; omega
      · rw [reply_obj]; simp [moveObj, State.setObj, State.emit, ho]
      · intro _; rw [reply_obj, reply_nc]; simp [moveObj, State.setObj, State.emit]
    · simp [State.fail] at hu'

theorem exec_ub_prefix {P : Prog σ V E} (ops ops' : List (Op σ V E)) (h : (exec P (ops ++ ops')).ub = none) : (exec P ops).ub = none := by
  induction ops' using QCoro.snocInd with
  | nil => simpa using h
  | snoc l x ih =>
    rw [← List.append_assoc, exec_snoc] at h
    apply ih
    cases hu : (exec P (ops ++ l)).ub with
    | none => rfl
    | some u => simp [Task.step, hu] at h

/-- The invariant holds from the moment a continuation is made. -/
theorem makes_exec {P : Prog σ V E} {ops op ops' t cfg rv k h} (hm : Makes P (exec P ops) op t cfg rv k h)
    (hu : (exec P (ops ++ op :: ops')).ub = none) : ∃ oo, TI P t oo cfg rv k h (Same P ops op ops' t rv k h) (exec P (ops ++ op :: ops')) := by
  have hu0 : (exec P ops).ub = none := exec_ub_prefix _ _ hu
  have hsplit : ∀ l : List (Op σ V E), ops ++ op :: l = (ops ++ [op]) ++ l := by simp
  have hu1 : (exec P (ops ++ [op])).ub = none := exec_ub_prefix _ _ (by rw [← hsplit]; exact hu)
  have h1 := makes_TI (Same P ops op ops' t rv k h) (exec_inv P ops hu0) (exec_linv P ops) hm (by rw [← exec_snoc]; exact hu1)
  obtain ⟨_, hcfg, oo, hoo, h1, _⟩ := h1
  refine ⟨oo, ?_⟩
  have key : ∀ p q, ops' = p ++ q → TI P t oo cfg rv k h (Same P ops op ops' t rv k h) (exec P (ops ++ op :: p)) := by
    intro p
    induction p using QCoro.snocInd with
    | nil => intro q _; rw [hsplit, List.append_nil, exec_snoc]; exact h1
    | snoc l x ih =>
      intro q e
      have hul : (exec P (ops ++ op :: l)).ub = none := exec_ub_prefix _ (x :: q) (by rw [e] at hu; simpa using hu)
      have hul' : (exec P (ops ++ op :: (l ++ [x]))).ub = none := exec_ub_prefix _ q (by rw [e] at hu; simpa using hu)
      have ih := ih (x :: q) (by simpa using e)
      have e1 : ops ++ op :: (l ++ [x]) = (ops ++ op :: l) ++ [x] := by simp
      have hlife := (exec_linv P (ops ++ op :: (l ++ [x]))).life t
      have hs2 : Same P ops op ops' t rv k h → rv = true ∨ k = .eager ∨ (((step P (exec P (ops ++ op :: l)) x).coro t).status = .running →
          hist t (step P (exec P (ops ++ op :: l)) x).log = [] → ((step P (exec P (ops ++ op :: l)) x).obj oo).handle = h) := by
        rintro (h | h | ⟨who, o, cfg', hp, hst⟩)
        · exact .inl h
        · exact .inr (.inl h)
        · refine .inr (.inr ?_)
          intro a b
          have := hst (l ++ [x]) q e
          rw [hoo _ _ _ hp] at this
          rw [e1, exec_snoc] at this hlife
          exact this ⟨by rw [hlife]; exact a, b⟩
      rw [e1, exec_snoc] at hul' ⊢
      exact TI_step ih hcfg (exec_inv P _ hul) (exec_linv P _) hul x hul' hs2
  exact key ops' [] (by simp)

end QCoro.Task
