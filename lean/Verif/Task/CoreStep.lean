import Verif.Task.Prim

namespace QCoro.Task
variable {σ V E : Type}

def noAsg (st : List Frame) : Prop := ∀ dst src, Frame.assign dst src ∉ st

/-- A pending move assignment is on top of the stack, below nothing but object destructions. -/
def AsgInv (s : State σ V E) : Prop :=
  noAsg s.stack ∨ ∃ ds dst src rest, s.stack = ds ++ .assign dst src :: rest ∧ (∀ f ∈ ds, ∃ os, f = .drops os) ∧
    noAsg rest ∧ dst ≠ src ∧ (s.obj dst).kind = (s.obj src).kind ∧ (s.obj dst).handle = none

structure Inv1 (s : State σ V E) : Prop where
  core : Core s
  asg : AsgInv s

theorem AsgInv.top {s : State σ V E} (h : AsgInv s) {f st} (hs : s.stack = f :: st)
    (hf : ∀ os, f ≠ .drops os) (hf' : ∀ d r, f ≠ .assign d r) : noAsg s.stack := by
  rcases h with h | ⟨ds, dst, src, rest, h1, h2, h3⟩
  · exact h
  · cases ds with
    | nil => simp [hs] at h1; exact absurd h1.1 (hf' _ _)
    | cons f' ds =>
      rw [hs] at h1; simp at h1
      obtain ⟨os, ho⟩ := h2 f' (by simp)
      exact absurd (h1.1.trans ho) (hf os)

theorem noAsg.cons {f st} (h : noAsg st) (hf : ∀ d r, f ≠ .assign d r) : noAsg (f :: st) := by
  intro d r hm; simp at hm; rcases hm with hm | hm
  · exact hf d r hm.symm
  · exact h d r hm

theorem noAsg.tail {f st} (h : noAsg (f :: st)) : noAsg st := fun d r hm => h d r (by simp [hm])

/-- What `deref` does to stack and objects. -/
theorem deref_shape (s : State σ V E) (c : Nat) :
    ((deref s c).stack = s.stack ∨ ∃ os, (deref s c).stack = .drops os :: s.stack) ∧ (deref s c).obj = s.obj := by
  unfold deref
  split
  · simp [State.fail]
  split
  · simp [State.fail]
  · split
    · simp [State.fail]
    · refine ⟨Or.inr ⟨_, rfl⟩, rfl⟩
  · simp [State.setCoro]

theorem dropObj_shape (s : State σ V E) (o : Nat) :
    ((dropObj s o).stack = s.stack ∨ ∃ os, (dropObj s o).stack = .drops os :: s.stack) ∧
    (dropObj s o).obj = fun i => if i = o then { s.obj o with alive := false, handle := none } else s.obj i := by
  unfold dropObj
  split
  · rename_i h
    refine ⟨Or.inl rfl, ?_⟩
    funext i; simp only [State.setObj]; split <;> simp [h]
  · have := deref_shape (s.setObj o { s.obj o with alive := false, handle := none }) ‹Nat›
    exact this

theorem noAsg.shape {st st'} (h : noAsg st) (hs : st' = st ∨ ∃ os, st' = .drops os :: st) : noAsg st' := by
  rcases hs with rfl | ⟨os, rfl⟩
  · exact h
  · exact h.cons (by simp)

/-- Who performs an action: the coroutine on top of the stack, or the main program. -/
def Actor (s : State σ V E) : Option Nat → Prop
  | none => True
  | some c => ∃ st, s.stack = .body c :: st

theorem Actor.lt {s : State σ V E} {who d} (h : Actor s who) (hc : CoreD s d) : ∀ c, who = some c → c < s.nc := by
  rintro c rfl
  obtain ⟨st, hs⟩ := h
  exact hc.bodyLt (by simp [hs])

theorem ok_fail {I : State σ V E → Prop} {s : State σ V E} {u : UB}
    (h : u.misuse = true ∨ u = .libObj ∨ u = .stuck) : OK I (s.fail u) := Or.inr ⟨u, rfl, h⟩

theorem objFault_ok (s : State σ V E) (o : Nat) :
    (s.objFault o).misuse = true ∨ s.objFault o = .libObj ∨ s.objFault o = .stuck := by
  unfold State.objFault; split <;> simp [UB.misuse]

theorem usable_alive {s : State σ V E} {p o} (h : s.usable p o = true) : (s.obj o).alive = true := by
  simp [State.usable] at h; exact h.1

theorem obj_lt {s : State σ V E} {d} (h : CoreD s d) {o} (ha : (s.obj o).alive = true) : o < s.no := by
  refine Nat.lt_of_not_le fun hn => ?_
  rw [h.objB o hn] at ha; simp at ha

@[simp] theorem reply_stack (s : State σ V E) (who r) : (s.reply who r).stack = s.stack := by cases who <;> rfl
@[simp] theorem reply_obj (s : State σ V E) (who r) : (s.reply who r).obj = s.obj := by cases who <;> rfl
@[simp] theorem reply_ub (s : State σ V E) (who r) : (s.reply who r).ub = s.ub := by cases who <;> rfl
@[simp] theorem reply_no (s : State σ V E) (who r) : (s.reply who r).no = s.no := by cases who <;> rfl
@[simp] theorem reply_nc (s : State σ V E) (who r) : (s.reply who r).nc = s.nc := by cases who <;> rfl
@[simp] theorem reply_log (s : State σ V E) (who r) : (s.reply who r).log = s.log := by cases who <;> rfl
@[simp] theorem reply_wctx (s : State σ V E) (who r) : (s.reply who r).wctx = s.wctx := by cases who <;> rfl
@[simp] theorem reply_nw (s : State σ V E) (who r) : (s.reply who r).nw = s.nw := by cases who <;> rfl
@[simp] theorem reply_qalive (s : State σ V E) (who r) : (s.reply who r).qalive = s.qalive := by cases who <;> rfl

theorem spawn_stack (P : Prog σ V E) (s : State σ V E) (k code ps v own) :
    (spawn P s k code ps v own).stack = s.stack ∨ (spawn P s k code ps v own).stack = .body s.nc :: s.stack := by
  unfold spawn; cases k
  · exact Or.inr rfl
  · exact Or.inl rfl

theorem spawn_ub (P : Prog σ V E) (s : State σ V E) (k code ps v own) :
    (spawn P s k code ps v own).ub = s.ub := by
  unfold spawn; cases k <;> rfl

theorem spawn_asg {P : Prog σ V E} {s : State σ V E} {k code ps v own} (h : noAsg s.stack) :
    AsgInv (spawn P s k code ps v own) := by
  left
  rcases spawn_stack P s k code ps v own with h' | h' <;> rw [h']
  · exact h
  · exact h.cons (by simp)

theorem moveArgs_ok (as : List Nat) : ∀ (s : State σ V E), Core s → s.ub = none →
    ((moveArgs s as).1.ub = none → Core (moveArgs s as).1) ∧
    ((moveArgs s as).1.ub = none ∨ (moveArgs s as).1.ub = some .badObj) ∧
    (moveArgs s as).1.stack = s.stack ∧ (moveArgs s as).1.nc = s.nc ∧ (moveArgs s as).1.coro = s.coro := by
  induction as with
  | nil => intro s h hu; exact ⟨fun _ => h, Or.inl hu, rfl, rfl, rfl⟩
  | cons a as ih =>
    intro s h hu
    simp only [moveArgs]
    split
    · rename_i ha
      exact ih (moveObj s a .user) (h.moveObj (usable_alive ha) _) hu
    · exact ⟨fun h' => by simp [State.fail] at h', Or.inr rfl, rfl, rfl, rfl⟩

theorem awaitObj_ok (P : Prog σ V E) {s : State σ V E} (h : Core s) (hu : s.ub = none) (hn : noAsg s.stack)
    {a o : Nat} {st} (hst : s.stack = .body a :: st) (priv : Bool) : OK Inv1 (awaitObj P s a o priv) := by
  have hnt : noAsg st := by rw [hst] at hn; exact hn.tail
  have hal := h.bodyLt (c := a) (by simp [hst])
  unfold awaitObj
  split
  · split
    · split
      · left
        refine ⟨hu, ?_, ?_⟩
        · exact (h.suspend hst (q := .waitNull) (Or.inl rfl)).congr rfl rfl rfl rfl rfl
            (h.suspend hst (q := .waitNull) (Or.inl rfl)).corB (fun _ => CEq.refl _)
        · left; simp [State.pop, State.emit, State.setCoro, hst, hnt]
      · exact ok_fail (by simp [UB.misuse])
    · rename_i d hd
      have hd' := h.hOk o d hd
      split
      · simp_all
      split
      · rename_i hdone
        have hr := (h.resD d).2 hdone
        split
        · simp_all
        · rename_i r hr'
          left
          refine ⟨?_, ?_, ?_⟩
          · simp [State.emit, State.setCoro, hu]
          · have h1 := h.setCoroEq (x := { s.coro d with result := some (afterRead P r) }) hd'.1
              ⟨rfl, rfl, by simp [hr'], rfl, rfl, rfl, rfl, rfl, rfl⟩
            refine (h1.reply ?_ _).emit _
            rintro c hc; simp at hc; subst hc; exact hal
          · left; simpa [State.emit, State.setCoro] using hn
      · rename_i hnd
        split
        · left
          refine ⟨hu, ?_, ?_⟩
          · have := h.awaitEager hst hd'.1 hnd _ rfl
            exact this.congr rfl rfl rfl rfl rfl this.corB (fun _ => CEq.refl _)
          · left; simp [State.pop, State.emit, State.setCoro, hst, hnt]
        · split
          · rename_i hi
            left
            refine ⟨hu, ?_, ?_⟩
            · have := h.awaitLazy hst hd'.1 hi _ rfl
              exact this.congr rfl rfl rfl rfl rfl this.corB (fun _ => CEq.refl _)
            · left; simp only [State.pop, State.push, State.emit, State.setCoro, hst]
              exact hnt.cons (by simp)
          · exact ok_fail (by simp [UB.misuse])
  · cases priv
    · exact ok_fail (by simp [UB.misuse])
    · exact ok_fail (objFault_ok _ _)

theorem finish_ok {s : State σ V E} (h : Core s) (hu : s.ub = none) (hn : noAsg s.stack)
    {a : Nat} {st} (hst : s.stack = .body a :: st) (r) : OK Inv1 (finish s a r) := by
  left
  refine ⟨hu, h.finish hst r, ?_⟩
  left
  simp only [finish, State.push, State.pop, State.emit, State.setCoro, hst, List.tail_cons]
  rw [hst] at hn
  exact hn.tail.cons (by simp)

theorem doUser_ok (P : Prog σ V E) {s : State σ V E} (h : Core s) (hu : s.ub = none) (hn : noAsg s.stack)
    {who} (ha : Actor s who) (act : UAct σ V E) : OK Inv1 (doUser P s who act) := by
  have hlt := ha.lt h
  have hwh : ∀ c, who = some c → ∃ st, s.stack = .body c :: st := by rintro c rfl; exact ha
  cases act with
  | ret v =>
    cases who with
    | none => exact Or.inl ⟨hu, h, Or.inl hn⟩
    | some c => obtain ⟨st, hs⟩ := ha; exact finish_ok h hu hn hs _
  | throw e =>
    cases who with
    | none => exact Or.inl ⟨hu, h, Or.inl hn⟩
    | some c => obtain ⟨st, hs⟩ := ha; exact finish_ok h hu hn hs _
  | call k code v args =>
    obtain ⟨m1, m2, m3, m4, m5⟩ := moveArgs_ok args s h hu
    simp only [doUser]
    split
    · rename_i hs
      rcases m2 with m2 | m2
      · simp [m2] at hs
      · exact Or.inr ⟨_, m2, by simp [UB.misuse]⟩
    · rename_i hs
      have m2' : (moveArgs s args).1.ub = none := by
        rcases m2 with m2 | m2
        · exact m2
        · simp [m2] at hs
      have hc := m1 m2'
      cases who with
      | none =>
        exact Or.inl ⟨by rw [spawn_ub]; exact m2', hc.spawn _ _ _ _ _ _, spawn_asg (by rw [m3]; exact hn)⟩
      | some p =>
        have hc' := hc.setCoroEq (c := p) (x := { (moveArgs s args).1.coro p with
            inp := .obj (moveArgs s args).1.no })
            (by rw [m4]; exact hlt p rfl) ⟨rfl, rfl, rfl, rfl, rfl, rfl, rfl, rfl, rfl⟩
        refine Or.inl ⟨by rw [spawn_ub]; exact m2', hc'.spawn _ _ _ _ _ _, spawn_asg ?_⟩
        simp only [State.setCoro]; rw [m3]; exact hn
  | await o =>
    cases who with
    | none => exact Or.inl ⟨hu, h, Or.inl hn⟩
    | some c => obtain ⟨st, hs⟩ := ha; exact awaitObj_ok P h hu hn hs _
  | awaitExt now =>
    cases who with
    | none => cases now <;> exact Or.inl ⟨hu, h, Or.inl hn⟩
    | some c =>
      cases now with
      | some r =>
        have := (h.reply (who := some c) hlt (.res r))
        exact Or.inl ⟨hu, this.congr rfl rfl rfl rfl rfl this.corB (fun _ => CEq.refl _), Or.inl hn⟩
      | none =>
      obtain ⟨st, hs⟩ := ha
      left
      refine ⟨hu, ?_, ?_⟩
      · exact (h.suspend hs (q := .waitExt) (Or.inr rfl)).congr rfl rfl rfl rfl rfl
          (h.suspend hs (q := .waitExt) (Or.inr rfl)).corB (fun _ => CEq.refl _)
      · left; rw [hs] at hn; simpa [doUser, State.pop, State.emit, State.setCoro, hs] using hn.tail
  | drop o =>
    simp only [doUser]
    split
    · rename_i hx
      have := (h.reply hlt .unit).dropObj (by simp [hu]) (o := o) (by simpa using usable_alive hx)
      exact Or.inl ⟨this.1, this.2, Or.inl (noAsg.shape (by simpa using hn) (dropObj_shape _ _).1)⟩
    · exact ok_fail (by simp [UB.misuse])
  | moveNew src =>
    simp only [doUser]
    split
    · rename_i hx
      refine Or.inl ⟨by simp [moveObj, State.setObj, hu], (h.reply hlt _).moveObj (by simpa using usable_alive hx) _, Or.inl ?_⟩
      simpa [moveObj, State.setObj] using hn
    · exact ok_fail (by simp [UB.misuse])
  | moveAssign dst src =>
    simp only [doUser]
    split
    · rename_i hx
      simp only [Bool.and_eq_true, decide_eq_true_eq] at hx
      split
      · exact Or.inl ⟨by simp [hu], h.reply hlt _, Or.inl (by simpa using hn)⟩
      · rename_i hne
        have hr := h.reply hlt (.unit)
        split
        · rename_i hh
          simp at hh
          refine Or.inl ⟨by simp [State.push, hu], ?_, ?_⟩
          · exact hr.congr rfl rfl rfl rfl rfl hr.corB (fun _ => CEq.refl _)
          · right
            refine ⟨[], dst, src, s.stack, by simp [State.push], by simp, hn, hne, ?_, ?_⟩
            · simp [State.push, hx.2]
            · simp [State.push, hh]
        · rename_i c hh
          simp at hh
          have h1 := hr.takeHandle (o := dst) (c := c) (by simpa using hh) ((s.reply who .unit).obj dst).alive
          have h2 : CoreD (((s.reply who .unit).setObj dst { (s.reply who .unit).obj dst with handle := none }).push (.assign dst src)) (some c) :=
            h1.congr rfl rfl rfl rfl rfl h1.corB (fun _ => CEq.refl _)
          have h3 := h2.deref (by simp [State.push, State.setObj, hu])
          refine Or.inl ⟨h3.1, h3.2, Or.inr ?_⟩
          obtain ⟨hs1, hs2⟩ := deref_shape (((s.reply who .unit).setObj dst { (s.reply who .unit).obj dst with handle := none }).push (.assign dst src)) c
          have hk : ((((s.reply who .unit).setObj dst { (s.reply who .unit).obj dst with handle := none }).push (.assign dst src)).obj dst).kind
             = ((((s.reply who .unit).setObj dst { (s.reply who .unit).obj dst with handle := none }).push (.assign dst src)).obj src).kind := by
            simp [State.push, State.setObj, hx.2, Ne.symm hne]
          have hh' : ((((s.reply who .unit).setObj dst { (s.reply who .unit).obj dst with handle := none }).push (.assign dst src)).obj dst).handle = none := by
            simp [State.push, State.setObj]
          rcases hs1 with hs1 | ⟨os, hs1⟩
          · refine ⟨[], dst, src, s.stack, ?_, by simp, hn, hne, by rw [hs2]; exact hk, by rw [hs2]; exact hh'⟩
            rw [hs1]; simp [State.push, State.setObj]
          · refine ⟨[.drops os], dst, src, s.stack, ?_, by simp, hn, hne, by rw [hs2]; exact hk, by rw [hs2]; exact hh'⟩
            rw [hs1]; simp [State.push, State.setObj]
    · exact ok_fail (by simp [UB.misuse])
  | mkNull k =>
    simp only [doUser]
    refine Or.inl ⟨by simp [State.setObj, hu], (h.mkNull k).reply hlt _, Or.inl ?_⟩
    simpa [State.setObj] using hn
  | isReady o =>
    simp only [doUser]
    split
    · split
      · exact Or.inl ⟨by simp [State.emit, hu], (h.reply hlt _).emit _, Or.inl (by simpa [State.emit] using hn)⟩
      · rename_i c hc
        have := (h.hOk o c hc).2.1
        split
        · simp_all
        · exact Or.inl ⟨by simp [State.emit, hu], (h.reply hlt _).emit _, Or.inl (by simpa [State.emit] using hn)⟩
    · exact ok_fail (by simp [UB.misuse])
  | waitFor o iv =>
    simp only [doUser]
    split
    · refine Or.inl ⟨by rw [spawn_ub]; exact hu, CoreD.spawn ?_ _ _ _ _ _ _, spawn_asg ?_⟩
      · exact h.congr rfl rfl rfl rfl rfl h.corB (fun _ => CEq.refl _)
      · exact hn.cons (by simp)
    · exact ok_fail (by simp [UB.misuse])
  | thenL o cfg =>
    simp only [doUser]
    split
    · refine Or.inl ⟨by rw [spawn_ub]; simp [State.emit, hu], CoreD.spawn ?_ _ _ _ _ _ _, spawn_asg ?_⟩
      · exact (h.emit _).reply hlt _
      · simpa [State.emit] using hn
    · exact ok_fail (by simp [UB.misuse])
  | thenR o cfg =>
    simp only [doUser]
    split
    · rename_i hx
      refine Or.inl ⟨by rw [spawn_ub]; simp [moveObj, State.emit, State.setObj, hu], CoreD.spawn ?_ _ _ _ _ _ _, spawn_asg ?_⟩
      · exact ((h.emit _).moveObj (o := o) (usable_alive hx) _).reply (by simpa [moveObj, State.emit, State.setObj] using hlt) _
      · simpa [moveObj, State.emit, State.setObj] using hn
    · exact ok_fail (by simp [UB.misuse])
  | connect o q code =>
    simp only [doUser]
    split
    · refine Or.inl ⟨by rw [spawn_ub]; simp [State.push, State.emit, hu], CoreD.spawn ?_ _ _ _ _ _ _, spawn_asg ?_⟩
      · have := (h.emit (.thenMade s.nc (s.obj o).handle ⟨false, some q, false, false⟩)).reply hlt .unit
        exact this.congr rfl rfl rfl rfl rfl this.corB (fun _ => CEq.refl _)
      · have : noAsg ((s.emit (.thenMade s.nc (s.obj o).handle ⟨false, some q, false, false⟩)).reply who .unit).stack := by simpa [State.emit] using hn
        exact this.cons (by simp)
    · exact ok_fail (by simp [UB.misuse])
  | delCtx q =>
    simp only [doUser]
    have h1 : Core { s with qalive := fun i => if i = q then false else s.qalive i } :=
      h.congr rfl rfl rfl rfl rfl h.corB (fun _ => CEq.refl _)
    exact Or.inl ⟨by simp [State.emit, hu], (h1.reply hlt _).emit _, Or.inl (by simpa [State.emit] using hn)⟩
  | note n =>
    exact Or.inl ⟨by simp [doUser, State.emit, hu], (h.reply hlt _).emit _, Or.inl (by simpa [doUser, State.emit] using hn)⟩

theorem doAct_ok (P : Prog σ V E) {s : State σ V E} (h : Core s) (hu : s.ub = none) (hn : noAsg s.stack)
    {c st} (hst : s.stack = .body c :: st) (act : Act σ V E) : OK Inv1 (doAct P s c act) := by
  have ha : Actor s (some c) := ⟨st, hst⟩
  have hlt := ha.lt h
  cases act with
  | u a => exact doUser_ok P h hu hn ha a
  | markCb v => exact Or.inl ⟨by simp [doAct, State.emit, hu], (h.reply hlt _).emit _, Or.inl (by simpa [doAct, State.emit] using hn)⟩
  | markErr v => exact Or.inl ⟨by simp [doAct, State.emit, hu], (h.reply hlt _).emit _, Or.inl (by simpa [doAct, State.emit] using hn)⟩
  | ctxAlive q v =>
    simp only [doAct]
    split
    · exact Or.inl ⟨by simp [State.emit, hu], (h.reply hlt _).emit _, Or.inl (by simpa [State.emit] using hn)⟩
    · exact Or.inl ⟨by simp [State.emit, hu], (h.reply hlt _).emit _, Or.inl (by simpa [State.emit] using hn)⟩
  | waitDone w r =>
    simp only [doAct]
    split
    · have h1 : Core (s.setW w { s.wctx w with fin := some r, exit := true }) :=
        h.congr rfl rfl rfl rfl rfl h.corB (fun _ => CEq.refl _)
      exact Or.inl ⟨by simp [State.setW, hu], h1.reply hlt _, Or.inl (by simpa [State.setW] using hn)⟩
    · exact ok_fail (by simp [UB.misuse])
  | callTmp k code v =>
    simp only [doAct]
    refine Or.inl ⟨by rw [spawn_ub]; simp [State.setCoro, State.emit, hu], CoreD.spawn ?_ _ _ _ _ _ _, spawn_asg ?_⟩
    · refine CoreD.emit (s := s.setCoro c _) ?_ _
      exact h.setCoroEq (hlt c rfl) ⟨rfl, rfl, rfl, rfl, rfl, rfl, rfl, rfl, rfl⟩
    · simpa [State.setCoro, State.emit] using hn
  | awaitTmp o => exact awaitObj_ok P h hu hn hst true
  | dropTmp o =>
    simp only [doAct]
    split
    · rename_i hx
      have := (h.reply hlt .unit).dropObj (by simp [hu]) (o := o) (by simpa using usable_alive hx)
      exact Or.inl ⟨this.1, this.2, Or.inl (noAsg.shape (by simpa using hn) (dropObj_shape _ _).1)⟩
    · exact ok_fail (objFault_ok _ _)
  | stuck => exact ok_fail (by simp)

theorem waitReturn_ok (P : Prog σ V E) {s : State σ V E} (h : Core s) (hu : s.ub = none) (hn : noAsg s.stack)
    {w f st} (hst : s.stack = f :: st) (hb : bodies s.stack = bodies st) (hf : finals s.stack = finals st)
    (hlt : ∀ c, (s.wctx w).caller = some c → c < s.nc) : OK Inv1 (waitReturn P s w) := by
  have hnt : noAsg st := by rw [hst] at hn; exact hn.tail
  have h1 : Core ((s.setW w { s.wctx w with alive := false }).pop) :=
    h.congr rfl rfl rfl (by simp [State.setW, State.pop, hst] at *; exact hb.symm)
      (by simp [State.setW, State.pop, hst] at *; exact hf.symm) h.corB (fun _ => CEq.refl _)
  unfold waitReturn
  dsimp only
  split
  · exact Or.inl ⟨by simp [State.emit, State.pop, State.setW, hu], (h1.reply hlt _).emit _,
      Or.inl (by simpa [State.emit, State.pop, State.setW, hst] using hnt)⟩
  · split
    · exact Or.inl ⟨by simp [State.emit, State.pop, State.setW, hu], (h1.reply hlt _).emit _,
        Or.inl (by simpa [State.emit, State.pop, State.setW, hst] using hnt)⟩
    · exact ok_fail (by simp [UB.misuse])

/-- Wait contexts remember an existing caller. -/
def CallerLt (s : State σ V E) : Prop := ∀ w c, (s.wctx w).caller = some c → c < s.nc

theorem run_ok (P : Prog σ V E) {s : State σ V E} (hI : Inv1 s) (hw : CallerLt s) (hu : s.ub = none) :
    OK Inv1 (run P s) := by
  obtain ⟨h, hA⟩ := hI
  unfold run
  split
  · exact Or.inl ⟨hu, h, hA⟩
  · rename_i c st hst
    have hn := hA.top hst (by simp) (by simp)
    have hlt := h.bodyLt (c := c) (by simp [hst])
    have hr := (h.bodyR c).1 (by simp [hst])
    have hf := h.notFreed hlt (by simp [hr])
    split
    · simp_all
    split
    · have := h.codeS c hlt; simp_all
    · rename_i code hcode
      have h1 : Core (s.setCoro c { s.coro c with code := some (codeNext P (s.coro c).owned code (s.coro c).inp).1 }) :=
        h.setCoroEq hlt ⟨rfl, rfl, rfl, rfl, rfl, rfl, rfl, rfl, by simp [hcode]⟩
      exact doAct_ok P h1 hu hn (st := st) hst _
  · rename_i c st hst
    have hn := hA.top hst (by simp) (by simp)
    have hc := (h.finR c).1 (by simp [hst])
    have hlt := h.statusLt (c := c) (by simp [hc])
    split
    · have := h.frS c ‹_›; simp_all
    split
    · rename_i a rest hfin
      have ha : (s.coro a).status = .waitTask c := by
        rw [← h.pendR c a]; simp [pend, hc, hfin]
      have hne : a ≠ c := by rintro rfl; simp [hc] at ha
      have hla := h.statusLt (c := a) (by simp [ha])
      have hfa := h.notFreed hla (by simp [ha])
      have hres := (h.resD c).2 hc.1
      dsimp only
      split
      · simp [State.setCoro, hne, hfa] at *
      split
      · split
        · simp [State.setCoro] at *; simp_all
        · rename_i r hr
          left
          refine ⟨hu, ?_, ?_⟩
          · have h1 := h.wake hst hfin ha (afterRead P r) _ rfl (.res r)
            refine h1.congr rfl rfl rfl rfl rfl ?_ ?_
            · intro i hi
              have hi' : s.nc ≤ i := hi
              have := h.corB i hi'
              simp only [State.emit, State.push, State.setCoro]
              rw [if_neg (by omega), if_neg (by omega), if_neg (by omega)]; exact this
            · intro i
              simp only [State.emit, State.push, State.setCoro]
              by_cases hi : i = a
              · subst hi; simp [hne]; exact CEq.refl _
              · by_cases hi' : i = c
                · subst hi'; simp [hi]; exact CEq.refl _
                · simp [hi, hi']; exact CEq.refl _
          · left
            simp only [State.emit, State.push, State.setCoro]
            exact hn.cons (by simp)
      · rename_i hx
        simp [State.setCoro, hne, ha] at hx
    · rename_i hfin
      have h1 := (h.finalEnd hst hfin).deref (by simpa [State.pop, State.setCoro] using hu)
      refine Or.inl ⟨h1.1, h1.2, Or.inl ?_⟩
      refine noAsg.shape ?_ (deref_shape _ _).1
      simp only [State.pop, State.setCoro, hst, List.tail_cons]
      rw [hst] at hn; exact hn.tail
  · rename_i os st hst
    split
    · refine Or.inl ⟨hu, ?_, ?_⟩
      · exact h.congr rfl rfl rfl (by simp [State.pop, hst]) (by simp [State.pop, hst]) h.corB (fun _ => CEq.refl _)
      · rcases hA with hA | ⟨ds, dst, src, rest, h1, h2, h3⟩
        · left; simp only [State.pop, hst, List.tail_cons]; rw [hst] at hA; exact hA.tail
        · right
          cases ds with
          | nil => simp [hst] at h1
          | cons f ds =>
            rw [hst] at h1; simp at h1
            exact ⟨ds, dst, src, rest, by simp [State.pop, hst, h1.2], fun f hf => h2 f (by simp [hf]), h3⟩
    · rename_i o os
      have h1 : Core (s.pop.push (.drops os)) :=
        h.congr rfl rfl rfl (by simp [State.pop, State.push, hst]) (by simp [State.pop, State.push, hst]) h.corB
          (fun _ => CEq.refl _)
      dsimp only
      split
      · rename_i hx
        have h2 := h1.dropObj hu (usable_alive hx)
        obtain ⟨hs1, hs2⟩ := dropObj_shape (s.pop.push (.drops os)) o
        refine Or.inl ⟨h2.1, h2.2, ?_⟩
        rcases hA with hA | ⟨ds, dst, src, rest, g1, g2, g3, g4, g5, g6⟩
        · left
          refine noAsg.shape ?_ hs1
          simp only [State.pop, State.push, hst, List.tail_cons]
          rw [hst] at hA; exact hA.tail.cons (by simp)
        · right
          cases ds with
          | nil => simp [hst] at g1
          | cons f ds =>
            rw [hst] at g1; simp at g1
            have hk : ((dropObj (s.pop.push (.drops os)) o).obj dst).kind = ((dropObj (s.pop.push (.drops os)) o).obj src).kind := by
              rw [hs2]; simp only [State.pop, State.push]; split <;> split <;> simp_all
            have hh : ((dropObj (s.pop.push (.drops os)) o).obj dst).handle = none := by
              rw [hs2]; simp only [State.pop, State.push]; split <;> simp_all
            have hst' : (s.pop.push (.drops os)).stack = .drops os :: (ds ++ .assign dst src :: rest) := by
              simp [State.pop, State.push, hst, g1.2]
            have hds : ∀ f ∈ ds, ∃ os, f = Frame.drops os := fun f hf => g2 f (by simp [hf])
            rcases hs1 with hs1 | ⟨os', hs1⟩
            · exact ⟨.drops os :: ds, dst, src, rest, by rw [hs1, hst']; simp, by simpa using hds, g3, g4, hk, hh⟩
            · exact ⟨.drops os' :: .drops os :: ds, dst, src, rest, by rw [hs1, hst']; simp, by simpa using hds, g3, g4, hk, hh⟩
      · exact ok_fail (objFault_ok _ _)
  · rename_i dst src st hst
    have hA' : noAsg st ∧ dst ≠ src ∧ (s.obj dst).kind = (s.obj src).kind ∧ (s.obj dst).handle = none := by
      rcases hA with hA | ⟨ds, dst', src', rest, g1, g2, g3, g4, g5, g6⟩
      · exact absurd (by simp [hst]) (hA dst src)
      · cases ds with
        | nil => rw [hst] at g1; simp at g1; obtain ⟨⟨rfl, rfl⟩, rfl⟩ := g1; exact ⟨g3, g4, g5, g6⟩
        | cons f ds =>
          rw [hst] at g1; simp at g1
          obtain ⟨os, ho⟩ := g2 f (by simp)
          rw [ho] at g1; simp at g1
    have h1 : Core s.pop :=
      h.congr rfl rfl rfl (by simp [State.pop, hst]) (by simp [State.pop, hst]) h.corB (fun _ => CEq.refl _)
    dsimp only
    split
    · rename_i hx
      simp only [Bool.and_eq_true] at hx
      have h2 := h1.assign hA'.2.1 (usable_alive hx.1) (usable_alive hx.2) hA'.2.2.2 hA'.2.2.1
      refine Or.inl ⟨hu, ?_, ?_⟩
      · refine h2.congr ?_ rfl rfl rfl rfl h2.corB (fun _ => CEq.refl _)
        funext i; simp [State.setObj, Ne.symm hA'.2.1]
      · left; simp [State.setObj, State.pop, hst, hA'.1]
    · exact ok_fail (by simp [UB.misuse])
  · rename_i w tmp st hst
    have hn := hA.top hst (by simp) (by simp)
    have h1 : Core (s.pop.push (.waitB w)) :=
      h.congr rfl rfl rfl (by simp [State.pop, State.push, hst]) (by simp [State.pop, State.push, hst]) h.corB
        (fun _ => CEq.refl _)
    dsimp only
    split
    · rename_i hx
      have h2 := h1.dropObj hu (usable_alive hx)
      refine Or.inl ⟨h2.1, h2.2, Or.inl (noAsg.shape ?_ (dropObj_shape _ _).1)⟩
      simp only [State.pop, State.push, hst, List.tail_cons]
      rw [hst] at hn; exact hn.tail.cons (by simp)
    · exact ok_fail (objFault_ok _ _)
  · rename_i w st hst
    have hn := hA.top hst (by simp) (by simp)
    split
    · exact waitReturn_ok P h hu hn hst (by simp [hst]) (by simp [hst]) (hw w)
    · refine Or.inl ⟨hu, ?_, Or.inl ?_⟩
      · exact h.congr rfl rfl rfl (by simp [State.pop, State.push, State.emit, hst]) (by simp [State.pop, State.push, State.emit, hst]) h.corB
          (fun _ => CEq.refl _)
      · simp only [State.pop, State.push, State.emit, hst, List.tail_cons]
        rw [hst] at hn; exact hn.tail.cons (by simp)
  · rename_i w st hst
    have hn := hA.top hst (by simp) (by simp)
    split
    · exact waitReturn_ok P h hu hn hst (by simp [hst]) (by simp [hst]) (hw w)
    · exact Or.inl ⟨hu, h, hA⟩

theorem mayAct_noAsg {s : State σ V E} (hA : AsgInv s) (hl : s.mayAct = true) : noAsg s.stack := by
  unfold State.mayAct at hl
  split at hl
  · rename_i h; rw [h]; intro d r; simp
  · rename_i h; exact hA.top h (by simp) (by simp)
  · rename_i h; exact hA.top h (by simp) (by simp)
  · simp at hl

theorem step_ok (P : Prog σ V E) {s : State σ V E} (hI : Inv1 s) (hw : CallerLt s) (hu : s.ub = none) (op) :
    OK Inv1 (step P s op) := by
  unfold step
  rw [if_neg (by simp [hu])]
  cases op with
  | run => exact run_ok P hI hw hu
  | main a =>
    simp only
    split
    · exact doUser_ok P hI.core hu (mayAct_noAsg hI.asg ‹_›) (who := none) trivial a
    · exact Or.inl ⟨hu, hI⟩
  | fire c r =>
    simp only
    split
    · rename_i hx
      simp only [Bool.and_eq_true, decide_eq_true_eq] at hx
      have h1 := hI.core.fire hx.2 (.res r)
      refine Or.inl ⟨hu, h1.congr rfl rfl rfl rfl rfl h1.corB (fun _ => CEq.refl _), Or.inl ?_⟩
      exact (mayAct_noAsg hI.asg hx.1).cons (by simp)
    · exact Or.inl ⟨hu, hI⟩
  | exitLoop w =>
    simp only
    split
    · rename_i hx
      refine Or.inl ⟨hu, ?_, hI.asg⟩
      exact hI.core.congr rfl rfl rfl rfl rfl hI.core.corB (fun _ => CEq.refl _)
    · exact Or.inl ⟨hu, hI⟩

end QCoro.Task
