import Verif.Task.ThenMake
import Verif.Task.Props

/-! C74: destroying, overwriting and moving Task objects, as complete operations. -/
namespace QCoro.Task
variable {σ V E : Type}

/-- From `s` to `t` nothing has happened but the release of Task objects and coroutine frames: coroutines were destroyed, Task objects
died, and the counts of coroutines that are still referenced changed; no coroutine was started, resumed, suspended or completed, no
awaiter was added or removed, no result touched. `who` is the coroutine that ordered it, if it was one. Specification vocabulary, no
counterpart in /repo. -/
structure Released (who : Option Nat) (s t : State σ V E) : Prop where
  log : ∃ ds : List Nat, t.log = s.log ++ ds.map .destroyed
  others : ∀ c, who ≠ some c → t.coro c = { s.coro c with rc := (t.coro c).rc, freed := (t.coro c).freed }
  performer : ∀ c, who = some c → t.coro c = { s.coro c with rc := (t.coro c).rc, code := (t.coro c).code, inp := .unit }
  wctx : t.wctx = s.wctx
  born : t.nc = s.nc ∧ t.no = s.no ∧ t.nw = s.nw

/-- Objects other than those in `xs`: untouched, or they died. Specification vocabulary, no counterpart in /repo. -/
def OnlyDied (xs : List Nat) (s t : State σ V E) : Prop :=
  ∀ o, o ∉ xs → t.obj o = s.obj o ∨ t.obj o = { s.obj o with alive := false, handle := none }

/-- Proof device, no counterpart in /repo. -/
structure Frees (s t : State σ V E) : Prop where
  log : ∃ ds : List Nat, t.log = s.log ++ ds.map .destroyed
  coro : ∀ c, t.coro c = { s.coro c with rc := (t.coro c).rc, freed := (t.coro c).freed }
  run : ∀ c, (s.coro c).status = .running → (t.coro c).freed = (s.coro c).freed
  obj : ∀ o, t.obj o = s.obj o ∨ t.obj o = { s.obj o with alive := false, handle := none }
  wctx : t.wctx = s.wctx
  born : t.nc = s.nc ∧ t.no = s.no ∧ t.nw = s.nw

theorem Frees.refl (s : State σ V E) : Frees s s :=
  ⟨⟨[], by simp⟩, fun _ => rfl, fun _ _ => rfl, fun _ => .inl rfl, rfl, rfl, rfl, rfl⟩

theorem Frees.trans {s t u : State σ V E} (h1 : Frees s t) (h2 : Frees t u) : Frees s u := by
  obtain ⟨⟨d1, l1⟩, c1, r1, o1, w1, b1⟩ := h1
  obtain ⟨⟨d2, l2⟩, c2, r2, o2, w2, b2⟩ := h2
  refine ⟨⟨d1 ++ d2, by simp [l2, l1]⟩, fun c => ?_, fun c hr => ?_, fun o => ?_, w2.trans w1, ?_⟩
  · have h2 := c2 c
    have h1 := c1 c
    rw [h1] at h2
    exact h2
  · rw [r2 c (by rw [c1 c]; exact hr), r1 c hr]
  · rcases o2 o with h | h <;> rcases o1 o with h' | h' <;> rw [h] <;> rw [h'] <;> simp
  · exact ⟨b2.1.trans b1.1, b2.2.1.trans b1.2.1, b2.2.2.trans b1.2.2⟩

/-- Proof device, no counterpart in /repo. -/
def lively (s : State σ V E) : Nat := ((List.range s.no).filter fun o => (s.obj o).alive).length

theorem lively_lt {s t : State σ V E} (hn : t.no = s.no) (o : Nat) (ho : o < s.no) (h1 : (s.obj o).alive = true)
    (h2 : (t.obj o).alive = false) (hs : ∀ x, x ≠ o → t.obj x = s.obj x) : lively t < lively s := by
  unfold lively
  rw [hn]
  have key : ∀ n, ((List.range n).filter fun o => (t.obj o).alive).length + (if o < n then 1 else 0) =
      ((List.range n).filter fun o => (s.obj o).alive).length := by
    intro n
    induction n with
    | zero => simp
    | succ n ih =>
      rw [List.range_succ, List.filter_append, List.filter_append, List.length_append, List.length_append, ← ih]
      by_cases hx : n = o
      · subst hx; simp [h1, h2]
      · have e : List.filter (fun o => (t.obj o).alive) [n] = List.filter (fun o => (s.obj o).alive) [n] := by simp [List.filter_cons, hs n hx]
        rw [e]
        by_cases h : o < n
        · have : o < n + 1 := by omega
          simp [h, this]; omega
        · have : ¬ o < n + 1 := by omega
          simp [h, this]
  have := key s.no
  rw [if_pos ho] at this
  omega

theorem deref_frees (s : State σ V E) (c : Nat) (hu : (deref s c).ub = none) :
    Frees s (deref s c) ∧ ((deref s c).stack = s.stack ∨ ∃ os, (deref s c).stack = .drops os :: s.stack) := by
  have hs : s.ub = none ∨ s.ub ≠ none := by cases s.ub <;> simp
  unfold deref at hu ⊢
  split at hu
  · simp [State.fail] at hu
  · rename_i hf
    rw [if_neg hf]
    split at hu
    · simp [State.fail] at hu
    · rename_i h1
      split at hu
      · simp [State.fail] at hu
      · rename_i hr
        rw [if_neg hr]
        refine ⟨⟨⟨[c], by simp [State.push, State.emit, State.setCoro]⟩, fun d => ?_, fun d hd => ?_, fun _ => .inl rfl, rfl, rfl, rfl, rfl⟩, .inr ⟨_, rfl⟩⟩
        · by_cases hd : d = c
          · subst hd; simp [State.push, State.emit, State.setCoro]
          · simp [State.push, State.emit, State.setCoro, hd]
        · have : d ≠ c := fun e => hr (e ▸ hd)
          simp [State.push, State.emit, State.setCoro, this]
    · rename_i n h1
      refine ⟨⟨⟨[], by simp [State.setCoro]⟩, fun d => ?_, fun d hd => ?_, fun _ => .inl rfl, rfl, rfl, rfl, rfl⟩, .inl rfl⟩
      · by_cases hd : d = c
        · subst hd; simp [State.setCoro]
        · simp [State.setCoro, hd]
      · by_cases hd : d = c
        · subst hd; simp [State.setCoro]
        · simp [State.setCoro, hd]

theorem dropObj_frees (s : State σ V E) (o : Nat) (hu : (dropObj s o).ub = none) :
    Frees s (dropObj s o) ∧ ((dropObj s o).obj o).alive = false ∧ ((dropObj s o).obj o).handle = none ∧
    (∀ x, x ≠ o → (dropObj s o).obj x = s.obj x) ∧
    ((dropObj s o).stack = s.stack ∨ ∃ os, (dropObj s o).stack = .drops os :: s.stack) := by
  have hkey : ∀ (t : State σ V E) c, (deref t c).obj = t.obj := by
    intro t c; unfold deref; repeat (first | rfl | split)
  unfold dropObj at hu ⊢
  cases hh : (s.obj o).handle with
  | none =>
    dsimp only
    refine ⟨⟨⟨[], by simp [State.setObj]⟩, fun _ => rfl, fun _ _ => rfl, fun x => ?_, rfl, rfl, rfl, rfl⟩, by simp [State.setObj], by simp [State.setObj, hh], ?_, .inl rfl⟩
    · by_cases hx : x = o
      · subst hx; right; simp [State.setObj, hh]
      · left; simp [State.setObj, hx]
    · intro x hx; simp [State.setObj, hx]
  | some c =>
    rw [hh] at hu
    dsimp only at hu ⊢
    obtain ⟨h1, h2⟩ := deref_frees _ _ hu
    refine ⟨Frees.trans (t := s.setObj o { s.obj o with alive := false, handle := none }) ?_ h1, by rw [hkey]; simp [State.setObj], by rw [hkey]; simp [State.setObj], ?_, h2⟩
    · refine ⟨⟨[], by simp [State.setObj]⟩, fun _ => rfl, fun _ _ => rfl, fun x => ?_, rfl, rfl, rfl, rfl⟩
      by_cases hx : x = o
      · subst hx; right; simp [State.setObj]
      · left; simp [State.setObj, hx]
    · intro x hx; rw [hkey]; simp [State.setObj, hx]

/-- What can go wrong when a Task object is released. -/
def relFault (u : UB) : Prop := u = .badObj ∨ u = .libObj ∨ u = .uaf ∨ u = .rcUnderflow ∨ u = .badDestroy

theorem deref_ub (s : State σ V E) (c : Nat) (hu : s.ub = none) (u) (h : (deref s c).ub = some u) : relFault u := by
  unfold deref at h
  split at h
  · simp [State.fail] at h; subst h; simp [relFault]
  · split at h
    · simp [State.fail] at h; subst h; simp [relFault]
    · split at h
      · simp [State.fail] at h; subst h; simp [relFault]
      · simp [State.push, State.emit, State.setCoro, hu] at h
    · simp [State.setCoro, hu] at h

theorem dropObj_ub (s : State σ V E) (o : Nat) (hu : s.ub = none) (u) (h : (dropObj s o).ub = some u) : relFault u := by
  unfold dropObj at h
  split at h
  · simp [State.setObj, hu] at h
  · exact deref_ub _ _ (by simp [State.setObj, hu]) u h

theorem drops_ub (P : Prog σ V E) (s : State σ V E) (os st) (hu : s.ub = none) (hs : s.stack = .drops os :: st) (u)
    (hb : (step P s .run).ub = some u) : relFault u := by
  have e : step P s .run = run P s := by simp [step, hu]
  rw [e] at hb
  unfold run at hb
  rw [hs] at hb
  cases os with
  | nil => simp [State.pop, hu] at hb
  | cons o os =>
    dsimp only at hb
    split at hb
    · exact dropObj_ub _ _ (by simp [State.push, State.pop, hu]) u hb
    · simp [State.fail, State.objFault] at hb
      subst hb
      split <;> simp [relFault]

theorem only_badObj (P : Prog σ V E) (ops : List (Op σ V E)) (u) (h : (exec P ops).ub = some u) (hr : relFault u) : u = .badObj := by
  have := C01_memory_safe P ops u h
  rcases hr with rfl | rfl | rfl | rfl | rfl <;> simp_all

/-- Releasing terminates, runs no user code and lets nobody else act. -/
theorem cascade (P : Prog σ V E) (st : List Frame) : ∀ (k : Nat) (j : Nat) (ops : List (Op σ V E)) (frs : List (List Nat)),
    lively (exec P ops) = k → frs.length + (frs.map List.length).sum = j → (exec P ops).ub = none → (exec P ops).stack = frs.map .drops ++ st →
    ∃ n, let t := exec P (ops ++ List.replicate n .run)
      (t.ub = some .badObj ∨ (t.ub = none ∧ t.stack = st ∧ Frees (exec P ops) t)) ∧
      ∀ m, m < n → (exec P (ops ++ List.replicate m .run)).mayAct = false := by
  intro k
  induction k using Nat.strongRecOn with
  | _ k ihk =>
  intro j
  induction j with
  | zero =>
    intro ops frs _ hj hu hs
    have : frs = [] := by cases frs <;> simp at hj ⊢
    subst this
    exact ⟨0, .inr ⟨by simpa using hu, by simpa using hs, by simpa using Frees.refl _⟩, by simp⟩
  | succ j ihj =>
    intro ops frs hk hj hu hs
    have hact : frs ≠ [] → (exec P ops).mayAct = false := by
      intro h
      cases frs with
      | nil => exact absurd rfl h
      | cons f fs => simp [State.mayAct, hs]
    have extend : ∀ (t : State σ V E), exec P (ops ++ [.run]) = t → Frees (exec P ops) t → frs ≠ [] →
        (∃ n, let u := exec P ((ops ++ [.run]) ++ List.replicate n .run)
          (u.ub = some .badObj ∨ (u.ub = none ∧ u.stack = st ∧ Frees (exec P (ops ++ [.run])) u)) ∧
          ∀ m, m < n → (exec P ((ops ++ [.run]) ++ List.replicate m .run)).mayAct = false) →
        ∃ n, let u := exec P (ops ++ List.replicate n .run)
          (u.ub = some .badObj ∨ (u.ub = none ∧ u.stack = st ∧ Frees (exec P ops) u)) ∧
          ∀ m, m < n → (exec P (ops ++ List.replicate m .run)).mayAct = false := by
      rintro t rfl hF hne ⟨n, h1, h2⟩
      have e : ∀ m, ops ++ List.replicate (m + 1) .run = (ops ++ [.run]) ++ List.replicate m .run := by
        intro m; rw [List.replicate_succ]; simp
      refine ⟨n + 1, ?_, ?_⟩
      · rw [e]
        rcases h1 with h1 | ⟨h1, h3, h4⟩
        · exact .inl h1
        · exact .inr ⟨h1, h3, hF.trans h4⟩
      · intro m hm
        cases m with
        | zero => simpa using hact hne
        | succ m => rw [e]; exact h2 m (by omega)
    have estep : exec P (ops ++ [.run]) = run P (exec P ops) := by rw [exec_snoc]; simp [step, hu]
    cases frs with
    | nil => simp at hj
    | cons f fs =>
      cases f with
      | nil =>
        have e : run P (exec P ops) = (exec P ops).pop := by unfold run; rw [hs]; rfl
        rw [e] at estep
        have hF : Frees (exec P ops) (exec P ops).pop := ⟨⟨[], by simp [State.pop]⟩, fun _ => rfl, fun _ _ => rfl, fun _ => .inl rfl, rfl, rfl, rfl, rfl⟩
        refine extend _ estep hF (by simp) (ihj _ fs ?_ ?_ ?_ ?_)
        · rw [estep]; exact hk
        · simp at hj; omega
        · rw [estep]; exact hu
        · rw [estep]; simp [State.pop, hs]
      | cons o os =>
        have e : run P (exec P ops) = if ((exec P ops).pop.push (.drops os)).usable true o then dropObj ((exec P ops).pop.push (.drops os)) o else ((exec P ops).pop.push (.drops os)).fail (((exec P ops).pop.push (.drops os)).objFault o) := by
          unfold run; rw [hs]; rfl
        cases hub : (exec P (ops ++ [.run])).ub with
        | some u =>
          have hr := drops_ub P (exec P ops) _ _ hu (by rw [hs]; rfl) u (by rw [← exec_snoc]; exact hub)
          have := only_badObj P _ u hub hr
          subst this
          exact ⟨1, .inl (by simpa using hub), fun m hm => by
            have : m = 0 := by omega
            subst this; simpa using hact (by simp)⟩
        | none =>
          have hc := (exec_inv P ops hu).i2.i1.core
          rw [e] at estep
          split at estep
          · rename_i hus
            rw [estep] at hub
            obtain ⟨hF, h1, h2, h3, h4⟩ := dropObj_frees _ _ hub
            have ha : ((exec P ops).obj o).alive = true := by simpa [State.usable, State.push, State.pop] using hus
            have hF0 : Frees (exec P ops) ((exec P ops).pop.push (.drops os)) := ⟨⟨[], by simp [State.pop, State.push]⟩, fun _ => rfl, fun _ _ => rfl, fun _ => .inl rfl, rfl, rfl, rfl, rfl⟩
            have hlt := lively_lt (s := exec P ops) (t := exec P (ops ++ [.run])) (by rw [estep]; exact hF.born.2.1) o (hc.aliveLt ha) ha (by rw [estep]; exact h1)
              (fun x hx => by rw [estep, h3 x hx]; rfl)
            have hstk : ∃ frs' : List (List Nat), (exec P (ops ++ [.run])).stack = frs'.map .drops ++ st := by
              rw [estep]
              rcases h4 with h4 | ⟨os', h4⟩
              · exact ⟨os :: fs, by rw [h4]; simp [State.push, State.pop, hs]⟩
              · exact ⟨os' :: os :: fs, by rw [h4]; simp [State.push, State.pop, hs]⟩
            obtain ⟨frs', hstk⟩ := hstk
            exact extend _ estep (hF0.trans hF) (by simp) (ihk _ (hk ▸ hlt) _ (ops ++ [.run]) frs' rfl rfl (by rw [estep]; exact hub) hstk)
          · rw [estep] at hub; simp [State.fail] at hub

/-- The state in which the performer's action starts. -/
theorem Performs.start {P : Prog σ V E} {s : State σ V E} {op who a} (h : Performs P s op who a) :
    ∃ s1 : State σ V E, Task.step P s op = doUser P s1 who a ∧ s1.log = s.log ∧ s1.obj = s.obj ∧ s1.nc = s.nc ∧ s1.no = s.no ∧
      s1.stack = s.stack ∧ s1.nw = s.nw ∧ s1.wctx = s.wctx ∧ s1.ub = none ∧ (∀ c, who = some c → Frame.body c ∈ s.stack) ∧
      (∀ c, who ≠ some c → s1.coro c = s.coro c) ∧ (∀ c, who = some c → ∃ k, s1.coro c = { s.coro c with code := k }) := by
  obtain ⟨hu, ⟨rfl, rfl, hl⟩ | ⟨c, st, code, rfl, rfl, hst, hf, hc, ha⟩⟩ := h
  · exact ⟨s, by simp [Task.step, hu, hl], rfl, rfl, rfl, rfl, rfl, rfl, rfl, hu, by simp, fun _ _ => rfl, by simp⟩
  · refine ⟨actState P s c code, ?_, rfl, rfl, rfl, rfl, rfl, rfl, rfl, hu, ?_, ?_, ?_⟩
    · rw [step_run_body hu hst hf hc, ha]; rfl
    · rintro c' ⟨⟩; rw [hst]; simp
    · intro d hd
      have : d ≠ c := fun e => hd (by rw [e])
      simp [actState, State.setCoro, this]
    · rintro d ⟨⟩
      exact ⟨_, by simp [actState, State.setCoro]; rfl⟩

/-- The steps between: `Frees` from the state in which the action starts gives `Released` from the state before. -/
theorem released_of {P : Prog σ V E} {ops : List (Op σ V E)} {who} {s1 t : State σ V E} (hu : (exec P ops).ub = none)
    (h1 : s1.log = (exec P ops).log) (h2 : s1.nc = (exec P ops).nc ∧ s1.no = (exec P ops).no ∧ s1.nw = (exec P ops).nw) (h3 : s1.wctx = (exec P ops).wctx)
    (hb : ∀ c, who = some c → Frame.body c ∈ (exec P ops).stack)
    (h4 : ∀ c, who ≠ some c → s1.coro c = (exec P ops).coro c) (h5 : ∀ c, who = some c → ∃ k, s1.coro c = { (exec P ops).coro c with code := k })
    (hF : Frees (s1.reply who .unit) t) : Released who (exec P ops) t := by
  have hrn : ∀ c, who ≠ some c → (s1.reply who (.unit : Resp V E)).coro c = (exec P ops).coro c := by
    intro c hc
    cases who with
    | none => exact h4 c hc
    | some d =>
      have : c ≠ d := fun e => hc (by rw [e])
      simp [State.reply, State.setCoro, this]; exact h4 c hc
  obtain ⟨⟨ds, hl⟩, hco, hru, _, hw, hbn⟩ := hF
  have hlog : (s1.reply who (.unit : Resp V E)).log = s1.log := by cases who <;> rfl
  have hw' : (s1.reply who (.unit : Resp V E)).wctx = s1.wctx := by cases who <;> rfl
  have hn' : (s1.reply who (.unit : Resp V E)).nc = s1.nc ∧ (s1.reply who (.unit : Resp V E)).no = s1.no ∧ (s1.reply who (.unit : Resp V E)).nw = s1.nw := by
    cases who <;> exact ⟨rfl, rfl, rfl⟩
  refine ⟨⟨ds, by rw [hl, hlog, h1]⟩, fun c hc => ?_, fun c hc => ?_, by rw [hw, hw', h3], ?_⟩
  · have := hco c
    rw [hrn c hc] at this
    exact this
  · subst hc
    obtain ⟨k, hk⟩ := h5 c rfl
    have hc0 := (exec_inv P ops hu).i2.i1.core
    have hr : ((exec P ops).coro c).status = .running := by
      rw [← hc0.bodyR]
      have := hb c rfl
      simp only [bodies, List.mem_filterMap]
      exact ⟨_, this, rfl⟩
    have h6 := hco c
    have h7 := hru c
    simp only [State.reply, State.setCoro, upd_same, hk] at h6 h7
    have h7 := h7 hr
    rw [h7] at h6
    have hk2 : (t.coro c).code = k := congrArg Coro.code h6
    rw [hk2]
    exact h6
  · exact ⟨hbn.1.trans (hn'.1.trans h2.1), hbn.2.1.trans (hn'.2.1.trans h2.2.1), hbn.2.2.trans (hn'.2.2.trans h2.2.2)⟩

/-- C74. Destroying a Task object, by anyone, anywhere: after finitely many steps of the library, during which nobody else can act,
control is back where it was; the object is gone; all that has happened is the destruction of coroutine frames and of the Task objects
they owned. (Unless the user has already destroyed an object that such a frame owned.) -/
theorem C74_drop (P : Prog σ V E) (ops op) (who : Option Nat) (o : Nat) (hp : Performs P (exec P ops) op who (.drop o)) :
    ∃ n, let t := exec P (ops ++ [op] ++ List.replicate n .run)
      (t.ub = some .badObj ∨
        (t.ub = none ∧ t.stack = (exec P ops).stack ∧ (t.obj o).alive = false ∧ (t.obj o).handle = none ∧
          Released who (exec P ops) t ∧ OnlyDied [o] (exec P ops) t)) ∧
      ∀ m, m < n → (exec P (ops ++ [op] ++ List.replicate m .run)).mayAct = false := by
  obtain ⟨s1, e, h1, h2, h3, h4, h5, h6, h7, hu1, hb, h8, h9⟩ := hp.start
  have hu := hp.1
  rw [← exec_snoc] at e
  have hro : (s1.reply who (.unit : Resp V E)).obj = (exec P ops).obj := by cases who <;> exact h2
  have hrs : (s1.reply who (.unit : Resp V E)).stack = (exec P ops).stack := by cases who <;> exact h5
  have hru : (s1.reply who (.unit : Resp V E)).ub = none := by cases who <;> exact hu1
  cases hub : (exec P (ops ++ [op])).ub with
  | some u =>
    refine ⟨0, .inl ?_, by simp⟩
    have hr : relFault u := by
      rw [e, doUser] at hub
      split at hub
      · exact dropObj_ub _ _ hru u hub
      · simp [State.fail] at hub; subst hub; simp [relFault]
    have := only_badObj P _ u hub hr
    subst this
    simpa using hub
  | none =>
    rw [doUser] at e
    split at e
    · have hub' := hub
      rw [e] at hub'
      obtain ⟨hF, g1, g2, g3, g4⟩ := dropObj_frees _ _ hub'
      have hstk : ∃ frs : List (List Nat), (exec P (ops ++ [op])).stack = frs.map .drops ++ (exec P ops).stack := by
        rw [e]
        rcases g4 with g4 | ⟨os', g4⟩
        · exact ⟨[], by rw [g4, hrs]; rfl⟩
        · exact ⟨[os'], by rw [g4, hrs]; rfl⟩
      obtain ⟨frs, hstk⟩ := hstk
      obtain ⟨n, hn, hm⟩ := cascade P _ _ _ (ops ++ [op]) frs rfl rfl hub hstk
      refine ⟨n, ?_, hm⟩
      rcases hn with hn | ⟨k1, k2, k3⟩
      · exact .inl hn
      · right
        rw [← e] at hF
        have hT := hF.trans k3
        have ho : (exec P (ops ++ [op] ++ List.replicate n .run)).obj o = (exec P (ops ++ [op])).obj o := by
          rcases k3.obj o with h | h
          · exact h
          · rw [h, e]
            have : (dropObj (s1.reply who (.unit : Resp V E)) o).obj o = { (dropObj (s1.reply who (.unit : Resp V E)) o).obj o with alive := ((dropObj (s1.reply who (.unit : Resp V E)) o).obj o).alive, handle := ((dropObj (s1.reply who (.unit : Resp V E)) o).obj o).handle } := rfl
            rw [g1, g2] at this
            exact this.symm
        refine ⟨k1, k2, by rw [ho, e]; exact g1, by rw [ho, e]; exact g2, released_of hu h1 ⟨h3, h4, h6⟩ h7 hb h8 h9 hT, fun x hx => ?_⟩
        have := hT.obj x
        rwa [hro] at this
    · rw [e] at hub; simp [State.fail] at hub

/-- C74. Move construction, by anyone, anywhere: the new object holds what the source held, the source is empty, nothing else changes. -/
theorem C74_move_construct (P : Prog σ V E) (ops op) (who : Option Nat) (src : Nat) (hp : Performs P (exec P ops) op who (.moveNew src))
    (hu : (exec P (ops ++ [op])).ub = none) :
    let s := exec P ops
    let t := exec P (ops ++ [op])
    (t.obj s.no).handle = (s.obj src).handle ∧ (t.obj s.no).alive = true ∧ (t.obj s.no).kind = (s.obj src).kind ∧ (s.obj s.no).alive = false ∧
    t.obj src = { s.obj src with handle := none } ∧ (s.obj src).alive = true ∧ (∀ o, o ≠ src → o ≠ s.no → t.obj o = s.obj o) ∧
    t.log = s.log ∧ t.stack = s.stack ∧ t.wctx = s.wctx ∧
    (∀ c, who ≠ some c → t.coro c = s.coro c) ∧ (∀ c, who = some c → t.coro c = { s.coro c with code := (t.coro c).code, inp := .obj s.no }) := by
  obtain ⟨s1, e, h1, h2, h3, h4, h5, h6, h7, hu1, hb, h8, h9⟩ := hp.start
  rw [← exec_snoc] at e
  have hc0 := (exec_inv P ops hp.1).i2.i1.core
  rw [doUser] at e
  split at e
  · rename_i hus
    have ha : ((exec P ops).obj src).alive = true := by rw [← h2]; simp [State.usable] at hus; exact hus.1
    have hlt := hc0.aliveLt ha
    have hne : src ≠ (exec P ops).no := by omega
    have hdead : ((exec P ops).obj (exec P ops).no).alive = false := by rw [hc0.objB _ (Nat.le_refl _)]
    intro s t
    have et : t = exec P (ops ++ [op]) := rfl
    rw [e, h4] at et
    have hrep : ∀ r : Resp V E, (s1.reply who r).obj = s.obj ∧ (s1.reply who r).no = s.no ∧ (s1.reply who r).log = s.log ∧ (s1.reply who r).stack = s.stack ∧ (s1.reply who r).wctx = s.wctx := by
      intro r; cases who <;> exact ⟨h2, h4, h1, h5, h7⟩
    obtain ⟨r1, r2, r3, r4, r5⟩ := hrep (.obj s.no)
    simp only [moveObj] at et
    rw [r1, r2] at et
    refine ⟨?_, ?_, ?_, hdead, ?_, ha, ?_, ?_, ?_, ?_, ?_, ?_⟩
    · rw [et]; simp [State.setObj]
    · rw [et]; simp [State.setObj]
    · rw [et]; simp [State.setObj]
    · rw [et]; simp [State.setObj, hne, s]
    · intro o ho1 ho2; rw [et]; simp [State.setObj, ho1, ho2, s]; rw [h2]
    · rw [et]; exact r3
    · rw [et]; exact r4
    · rw [et]; exact r5
    · intro c hc
      rw [et]
      cases who with
      | none => exact h8 c hc
      | some d =>
        have : c ≠ d := fun e => hc (by rw [e])
        simp [State.setObj, State.reply, State.setCoro, this]; exact h8 c hc
    · intro c hc
      subst hc
      obtain ⟨k, hk⟩ := h9 c rfl
      have : t.coro c = { s.coro c with code := k, inp := .obj s.no } := by
        rw [et]; simp [State.setObj, State.reply, State.setCoro, hk, s]
      have hk2 : (t.coro c).code = k := congrArg Coro.code this
      rw [hk2]; exact this
  · rw [e] at hu; simp [State.fail] at hu

/-- C74. Move assignment, by anyone, anywhere, to a different object: after finitely many steps of the library, during which nobody else
can act, control is back where it was; the destination holds what the source held, the source is empty; all else that has happened is
the destruction of coroutine frames and of the Task objects they owned. -/
theorem C74_move_assign (P : Prog σ V E) (ops op) (who : Option Nat) (dst src : Nat) (hp : Performs P (exec P ops) op who (.moveAssign dst src))
    (hne : dst ≠ src) :
    ∃ n, let t := exec P (ops ++ [op] ++ List.replicate n .run)
      (t.ub = some .badObj ∨
        (t.ub = none ∧ t.stack = (exec P ops).stack ∧ t.obj dst = { (exec P ops).obj dst with handle := ((exec P ops).obj src).handle } ∧
          t.obj src = { (exec P ops).obj src with handle := none } ∧
          Released who (exec P ops) t ∧ OnlyDied [dst, src] (exec P ops) t)) ∧
      ∀ m, m < n → (exec P (ops ++ [op] ++ List.replicate m .run)).mayAct = false := by
  obtain ⟨s1, e, h1, h2, h3, h4, h5, h6, h7, hu1, hb, h8, h9⟩ := hp.start
  have hu := hp.1
  rw [← exec_snoc] at e
  have hro : (s1.reply who (.unit : Resp V E)).obj = (exec P ops).obj := by cases who <;> exact h2
  have hrs : (s1.reply who (.unit : Resp V E)).stack = (exec P ops).stack := by cases who <;> exact h5
  have hru : (s1.reply who (.unit : Resp V E)).ub = none := by cases who <;> exact hu1
  by_cases hcond : (s1.usable false dst && s1.usable false src && decide ((s1.obj dst).kind = (s1.obj src).kind)) = true
  · have e : exec P (ops ++ [op]) = match ((s1.reply who (.unit : Resp V E)).obj dst).handle with
        | none => (s1.reply who (.unit : Resp V E)).push (.assign dst src)
        | some c => deref (((s1.reply who (.unit : Resp V E)).setObj dst { (s1.reply who (.unit : Resp V E)).obj dst with handle := none }).push (.assign dst src)) c := by
      rw [e, doUser, if_pos hcond]
      dsimp only
      rw [if_neg hne]
      rfl
    generalize hr : s1.reply who (.unit : Resp V E) = r at *
    -- the state in which the old coroutine has been let go and nothing has been freed yet
    obtain ⟨b, hbdef⟩ : ∃ b : State σ V E, b = (r.setObj dst { r.obj dst with handle := none }).push (.assign dst src) := ⟨_, rfl⟩
    have hbF : ∀ t, Frees b t → Released who (exec P ops) t ∧ OnlyDied [dst] (exec P ops) t := by
      intro t ht
      have : Frees b t := ht
      obtain ⟨hl, hc, hrn, ho, hw, hbn⟩ := ht
      have h10 : Frees r { t with obj := r.obj } := by
        subst hbdef
        exact ⟨hl, hc, hrn, fun _ => .inl rfl, hw, hbn⟩
      refine ⟨?_, fun o hod => ?_⟩
      · rw [← hr] at h10
        have := released_of hu h1 ⟨h3, h4, h6⟩ h7 hb h8 h9 h10
        exact ⟨this.log, this.others, this.performer, this.wctx, this.born⟩
      · have := ho o
        simp at hod
        subst hbdef
        simpa [State.push, State.setObj, hod, hro] using this
    have hbu : b.ub = none := by subst hbdef; exact hru
    have hbs : b.stack = .assign dst src :: (exec P ops).stack := by subst hbdef; simp [State.push, State.setObj, hrs]
    have hbd : b.obj dst = { (exec P ops).obj dst with handle := none } := by subst hbdef; simp [State.push, State.setObj, hro]
    have hbo : b.obj src = (exec P ops).obj src := by subst hbdef; simp [State.push, State.setObj, hro, Ne.symm hne]
    -- after the first step
    have first : (∃ u, (exec P (ops ++ [op])).ub = some u ∧ relFault u) ∨
        ((exec P (ops ++ [op])).ub = none ∧ Frees b (exec P (ops ++ [op])) ∧ ∃ frs : List (List Nat), (exec P (ops ++ [op])).stack = frs.map .drops ++ .assign dst src :: (exec P ops).stack) := by
      cases hh : (r.obj dst).handle with
      | none =>
        rw [hh] at e
        dsimp only at e
        have eb : exec P (ops ++ [op]) = b := by
          rw [e, hbdef]
          have : r.setObj dst { r.obj dst with handle := none } = r := by
            rw [← hh]
            simp only [State.setObj]
            congr 1
            funext j
            split
            · rename_i h; rw [h]
            · rfl
          rw [this]
        right
        rw [eb]
        exact ⟨hbu, Frees.refl _, [], by rw [hbs]; rfl⟩
      | some c =>
        rw [hh] at e
        dsimp only at e
        have e : exec P (ops ++ [op]) = deref b c := by
          rw [e, hbdef]
        cases hub : (exec P (ops ++ [op])).ub with
        | some u => exact .inl ⟨u, rfl, deref_ub b c hbu u (by rw [← e]; exact hub)⟩
        | none =>
          right
          rw [e] at hub ⊢
          obtain ⟨g1, g2⟩ := deref_frees b c hub
          refine ⟨rfl, g1, ?_⟩
          rcases g2 with g2 | ⟨os, g2⟩
          · exact ⟨[], by rw [g2, hbs]; rfl⟩
          · exact ⟨[os], by rw [g2, hbs]; rfl⟩
    rcases first with ⟨u, hub, hrf⟩ | ⟨hub, hF, frs, hstk⟩
    · have := only_badObj P _ u hub hrf
      subst this
      exact ⟨0, .inl (by simpa using hub), by simp⟩
    · obtain ⟨n, hn, hm⟩ := cascade P _ _ _ (ops ++ [op]) frs rfl rfl hub hstk
      rcases hn with hn | ⟨k1, k2, k3⟩
      · exact ⟨n, .inl hn, hm⟩
      · refine ⟨n + 1, ?_, ?_⟩
        · have er : ops ++ [op] ++ List.replicate (n + 1) .run = (ops ++ [op] ++ List.replicate n .run) ++ [.run] := by
            rw [List.replicate_succ']; simp
          have hT := hF.trans k3
          simp only [er]
          rw [exec_snoc]
          generalize exec P (ops ++ [op] ++ List.replicate n .run) = t0 at *
          have es : step P t0 .run = run P t0 := by simp [step, k1]
          rw [es]
          unfold run
          rw [k2]
          dsimp only
          split
          · rename_i hus
            right
            have ha : (t0.obj dst).alive = true ∧ (t0.obj src).alive = true := by
              simp [State.usable, State.pop] at hus; exact ⟨hus.1.1, hus.2.1⟩
            have ed : t0.obj dst = b.obj dst := by
              rcases hT.obj dst with h | h
              · exact h
              · rw [h] at ha; simp at ha
            have eo : t0.obj src = b.obj src := by
              rcases hT.obj src with h | h
              · exact h
              · rw [h] at ha; simp at ha
            obtain ⟨q1, q2⟩ := hbF t0 hT
            refine ⟨k1, ?_, ?_, ?_, ?_, ?_⟩
            · simp [State.setObj, State.pop, k2]
            · simp [State.setObj, State.pop, hne, ed, eo, hbd, hbo]
            · simp [State.setObj, State.pop, Ne.symm hne, eo, hbo]
            · exact ⟨q1.log, q1.others, q1.performer, q1.wctx, q1.born⟩
            · intro o ho
              simp at ho
              have := q2 o (by simp [ho.1])
              simpa [State.setObj, State.pop, ho.1, ho.2] using this
          · left; rfl
        · intro m hmn
          by_cases hmn' : m = n
          · rw [hmn']; unfold State.mayAct; rw [k2]
          · exact hm m (by omega)
  · refine ⟨0, .inl ?_, by simp⟩
    simp only [List.replicate_zero, List.append_nil]
    rw [e, doUser, if_neg hcond]; rfl

/-- C74. Move assignment to itself changes nothing. -/
theorem C74_self_move (P : Prog σ V E) (ops op) (who : Option Nat) (o : Nat) (hp : Performs P (exec P ops) op who (.moveAssign o o))
    (hu : (exec P (ops ++ [op])).ub = none) :
    let s := exec P ops
    let t := exec P (ops ++ [op])
    t.obj = s.obj ∧ t.log = s.log ∧ t.stack = s.stack ∧ t.wctx = s.wctx ∧
    (∀ c, who ≠ some c → t.coro c = s.coro c) ∧ (∀ c, who = some c → t.coro c = { s.coro c with code := (t.coro c).code, inp := .unit }) := by
  obtain ⟨s1, e, h1, h2, h3, h4, h5, h6, h7, hu1, hb, h8, h9⟩ := hp.start
  rw [← exec_snoc] at e
  rw [doUser] at e
  split at e
  · rw [if_pos rfl] at e
    intro s t
    have et : t = s1.reply who .unit := e
    rw [et]
    refine ⟨by cases who <;> exact h2, by cases who <;> exact h1, by cases who <;> exact h5, by cases who <;> exact h7, ?_, ?_⟩
    · intro c hc
      cases who with
      | none => exact h8 c hc
      | some d =>
        have : c ≠ d := fun e => hc (by rw [e])
        simp [State.reply, State.setCoro, this]; exact h8 c hc
    · intro c hc
      subst hc
      obtain ⟨k, hk⟩ := h9 c rfl
      simp [State.reply, State.setCoro, hk, s]
  · rw [e] at hu; simp [State.fail] at hu

/-- A finished Task, passed by value to a coroutine that has finished too: destroying the latter's Task destroys both coroutines. -/
def demoOwner : List (Op Nat Nat Nat) := [.main (.call .eager 20 0 [])] ++ go 4 ++ [.main (.call .eager 20 0 [0])] ++ go 4

example : Performs demo (exec demo demoOwner) (.main (.drop 2)) none (.drop 2) :=
  ⟨by decide, .inl ⟨rfl, rfl, by decide⟩⟩
example : let t := exec demo (demoOwner ++ [.main (.drop 2)] ++ go 3)
    t.log = (exec demo demoOwner).log ++ [.destroyed 1, .destroyed 0] ∧ t.stack = [] ∧ t.ub = none ∧ (t.obj 1).alive = false := by decide
/-- Overwriting it: the same, and the destination then holds what the source held. -/
example : let t := exec demo (demoOwner ++ [.main (.call .eager 0 0 [])] ++ go 2 ++ [.main (.moveAssign 2 3)] ++ go 4)
    (t.obj 2).handle = some 2 ∧ (t.obj 3).handle = none ∧ (t.obj 3).alive = true ∧ .destroyed 1 ∈ t.log ∧ .destroyed 0 ∈ t.log ∧ t.stack = [] ∧ t.ub = none := by decide
/-- Why the proviso: the user destroys the parameter behind the coroutine's back. -/
example : (exec demo (demoOwner ++ [.main (.drop 1)] ++ go 3 ++ [.main (.drop 2)] ++ go 3)).ub = some .badObj := by decide

end QCoro.Task
