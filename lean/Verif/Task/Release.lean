import Verif.Task.ObjStep

/-! Release of the Task objects the library itself holds, and who may hold a coroutine only the library knows. -/
namespace QCoro.Task
variable {σ V E : Type}

/-- Every coroutine is held by at most one Task object (Task is move-only). -/
def UQ (s : State σ V E) : Prop := ∀ o h, (s.obj o).handle = some h → o < s.no ∧ h < s.nc ∧ ∀ o', (s.obj o').handle = some h → o' = o

/-- How an action changes ownership. -/
structure Rel (s s' : State σ V E) : Prop where
  nc : s.nc ≤ s'.nc
  no : s.no ≤ s'.no
  owner : ∀ o, o < s.no → (s'.obj o).owner = (s.obj o).owner
  owned : ∀ i, i < s.nc → (s'.coro i).owned = (s.coro i).owned
  freed : ∀ i, i < s.nc → (s.coro i).freed = true → (s'.coro i).freed = true
  dead : ∀ o, o < s.no → (s.obj o).alive = false → (s'.obj o).alive = false
  /-- references come from where they were, from a user object, or belong to a new coroutine -/
  hs : ∀ o h, o < s'.no → (s'.obj o).handle = some h → (o < s.no ∧ (s.obj o).handle = some h) ∨ s.nc ≤ h ∨
    ∃ o', o' < s.no ∧ (s.obj o').owner = .user ∧ (s.obj o').handle = some h
  /-- pending destructions stay pending or happen -/
  tok : ∀ o, o < s.no → o ∈ toks s.stack → o ∈ toks s'.stack ∨ (s'.obj o).alive = false
  /-- destroying a frame schedules the destruction of its parameters -/
  fr : ∀ c, c < s.nc → (s.coro c).freed = false → (s'.coro c).freed = true → ∀ o, o < s.no → o ∈ (s.coro c).owned →
    o ∈ toks s'.stack ∨ (s'.obj o).alive = false
  /-- new objects belong to somebody -/
  new : ∀ o, s.no ≤ o → o < s'.no → (s'.obj o).alive = false ∨ (s'.obj o).owner = .user ∨ (∃ c, (s'.obj o).owner = .tmp c) ∨
    o ∈ toks s'.stack ∨ ∃ c, s.nc ≤ c ∧ c < s'.nc ∧ (s'.obj o).owner = .param c ∧ o ∈ (s'.coro c).owned ∧ (s'.coro c).freed = false
  un : UQ s → UQ s'

theorem Rel.refl (s : State σ V E) : Rel s s := by constructor <;> grind

theorem Rel.trans {a b c : State σ V E} (h : Rel a b) (k : Rel b c) : Rel a c := by
  obtain ⟨a1,a2,a3,a4,a5,a6,a7,a8,a9,a10,a11⟩ := h
  obtain ⟨b1,b2,b3,b4,b5,b6,b7,b8,b9,b10,b11⟩ := k
  constructor
  · omega
  · omega
  · intro o ho; rw [b3 o (by omega), a3 o ho]
  · intro o ho; rw [b4 o (by omega), a4 o ho]
  · intro o ho hf; exact b5 o (by omega) (a5 o ho hf)
  · intro o ho hf; exact b6 o (by omega) (a6 o ho hf)
  · intro o h ho hh
    rcases b7 o h ho hh with ⟨h1, h2⟩ | h1 | ⟨o', h1, h2, h3⟩
    · exact a7 o h h1 h2
    · right; left; omega
    · rcases a7 o' h h1 h3 with ⟨h4, h5⟩ | h4 | h4
      · exact .inr (.inr ⟨o', h4, by rw [← a3 o' h4]; exact h2, h5⟩)
      · exact .inr (.inl h4)
      · exact .inr (.inr h4)
  · intro o ho ht
    rcases a8 o ho ht with h1 | h1
    · exact b8 o (by omega) h1
    · exact .inr (b6 o (by omega) h1)
  · intro i hi hf hf' o ho hm
    cases hx : (b.coro i).freed with
    | true =>
      rcases a9 i hi hf hx o ho hm with h1 | h1
      · exact b8 o (by omega) h1
      · exact .inr (b6 o (by omega) h1)
    | false => exact b9 i (by omega) hx hf' o (by omega) (by rw [a4 i hi]; exact hm)
  · intro o ho ho'
    by_cases hb : o < b.no
    · rcases a10 o ho hb with h1 | h1 | ⟨i, h1⟩ | h1 | ⟨i, h1, h2, h3, h4, h5⟩
      · exact .inl (b6 o hb h1)
      · right; left; rw [b3 o hb]; exact h1
      · right; right; left; exact ⟨i, by rw [b3 o hb]; exact h1⟩
      · rcases b8 o hb h1 with h | h
        · right; right; right; left; exact h
        · exact .inl h
      · cases hx : (c.coro i).freed with
        | false => right; right; right; right; exact ⟨i, h1, by omega, by rw [b3 o hb]; exact h3, by rw [b4 i h2]; exact h4, hx⟩
        | true =>
          rcases b9 i h2 h5 hx o hb h4 with h | h
          · right; right; right; left; exact h
          · exact .inl h
    · rcases b10 o (by omega) ho' with h1 | h1 | ⟨i, h1⟩ | h1 | ⟨i, h1, h2, h3, h4, h5⟩
      · exact .inl h1
      · exact .inr (.inl h1)
      · exact .inr (.inr (.inl ⟨i, h1⟩))
      · exact .inr (.inr (.inr (.inl h1)))
      · exact .inr (.inr (.inr (.inr ⟨i, by omega, h2, h3, h4, h5⟩)))
  · exact fun h => b11 (a11 h)

/-- Nothing that matters for ownership changed. -/
theorem Rel.of_eq {s s' : State σ V E} (h1 : s'.nc = s.nc) (h2 : s'.no = s.no) (h3 : s'.obj = s.obj)
    (h4 : ∀ i, (s'.coro i).owned = (s.coro i).owned ∧ (s'.coro i).freed = (s.coro i).freed)
    (h5 : ∀ o, o ∈ toks s.stack → o ∈ toks s'.stack) : Rel s s' := by
  constructor <;> simp only [UQ, h1, h2, h3, h4] <;> grind

theorem rel_fail (s : State σ V E) (u) : Rel s (s.fail u) := Rel.of_eq rfl rfl rfl (fun _ => ⟨rfl, rfl⟩) (fun _ h => h)
theorem rel_setCoro {s : State σ V E} {c} {x : Coro σ V E} (h1 : x.owned = (s.coro c).owned) (h2 : x.freed = (s.coro c).freed) :
    Rel s (s.setCoro c x) :=
  Rel.of_eq rfl rfl rfl (fun i => by simp only [State.setCoro]; grind) (fun _ h => h)
theorem rel_reply (s : State σ V E) (who i) : Rel s (s.reply who i) := by
  cases who with
  | none => exact Rel.refl _
  | some c => exact rel_setCoro rfl rfl
theorem rel_emit (s : State σ V E) (e) : Rel s (s.emit e) := Rel.of_eq rfl rfl rfl (fun _ => ⟨rfl, rfl⟩) (fun _ h => h)
theorem toks_push (f : Frame) (st) {o} (h : o ∈ toks st) : o ∈ toks (f :: st) := by
  simp only [toks, List.flatMap_cons, List.mem_append]; exact .inr h
theorem rel_push (s : State σ V E) (f) : Rel s (s.push f) := Rel.of_eq rfl rfl rfl (fun _ => ⟨rfl, rfl⟩) (fun _ h => toks_push f _ h)
theorem rel_popBody {s : State σ V E} (h : s.stack = [] ∨ ∃ f st, s.stack = f :: st ∧ tokOf f = []) : Rel s s.pop := by
  refine Rel.of_eq rfl rfl rfl (fun _ => ⟨rfl, rfl⟩) ?_
  intro o ho
  rcases h with h | ⟨f, st, h, hf⟩
  · rw [h] at ho; simp at ho
  · rw [h] at ho; show o ∈ toks s.stack.tail
    rw [h]; simpa [toks, hf] using ho

theorem rel_deref (s : State σ V E) (c) (hc : c < s.nc) : Rel s (deref s c) := by
  unfold deref
  split
  · exact rel_fail _ _
  split
  · exact rel_fail _ _
  · split
    · exact rel_fail _ _
    · rename_i h1 h2 h3
      constructor <;> simp only [UQ, State.push, State.emit, State.setCoro, toks_drops, List.mem_append, List.mem_reverse] <;> grind
  · exact rel_setCoro rfl rfl

/-- Overwriting an object without creating a reference. -/
theorem rel_clear {s : State σ V E} {o} {x : Obj} (h1 : x.owner = (s.obj o).owner) (h2 : x.handle = none ∨ x.handle = (s.obj o).handle)
    (h3 : x.alive = (s.obj o).alive ∨ x.alive = false) : Rel s (s.setObj o x) := by
  constructor <;> simp only [UQ, State.setObj] <;> grind

theorem rel_dropObj (s : State σ V E) (o) (hc : ∀ c, (s.obj o).handle = some c → c < s.nc) : Rel s (dropObj s o) := by
  unfold dropObj
  split
  · exact rel_clear rfl (.inr rfl) (.inr rfl)
  · rename_i c h
    exact (rel_clear (by rfl) (.inl rfl) (.inr rfl)).trans (rel_deref _ _ (hc c h))

theorem rel_moveObj (s : State σ V E) (src) (h : (s.obj src).owner = .user) (hlt : src < s.no) : Rel s (moveObj s src .user) := by
  unfold moveObj
  constructor <;> simp only [UQ, State.setObj] <;> grind

theorem rel_spawn (P : Prog σ V E) (s : State σ V E) (k code ps v own) (h : own = .user ∨ (∃ c, own = .tmp c) ∨ s.no ∈ toks s.stack) :
    Rel s (spawn P s k code ps v own) := by
  unfold spawn
  cases k <;> constructor <;> simp only [UQ, State.push, State.emit, State.setObj, State.setCoro, toks_body] <;> grind

theorem rel_moveArgs (as : List Nat) : ∀ s : State σ V E, (∀ o, (s.obj o).alive = true → o < s.no) → Rel s (moveArgs s as).1 := by
  induction as with
  | nil => intro s _; exact Rel.refl _
  | cons a as ih =>
    intro s hs
    simp only [moveArgs]
    split
    · rename_i hx
      have ha := hs a (usable_alive hx)
      refine (rel_moveObj s a (usable_user hx) ha).trans (ih _ ?_)
      intro o ho
      simp only [moveObj, State.setObj] at ho ⊢
      grind
    · exact rel_fail _ _

theorem rel_awaitObj (P : Prog σ V E) (s : State σ V E) (a o priv) (ha : Actor s (some a)) : Rel s (awaitObj P s a o priv) := by
  obtain ⟨st, hst⟩ := ha
  have hp : ∀ x, x ∈ toks s.stack → x ∈ toks s.stack.tail := by intro x hx; rw [hst] at hx ⊢; simpa using hx
  rcases awaitObj_cases P s a o priv with ⟨u, h⟩ | ⟨_, _, _, h⟩ | ⟨d, _, hd, _, ⟨r, _, _, h⟩ | ⟨_, _, h⟩ | ⟨hi, _, h⟩⟩ <;> rw [h]
  · exact rel_fail _ _
  · exact Rel.of_eq rfl rfl rfl (fun i => by simp only [hungState, State.pop, State.emit, State.setCoro]; grind) hp
  · exact Rel.of_eq rfl rfl rfl (fun i => by simp only [readyState, State.reply, State.emit, State.setCoro]; grind) (fun _ h => h)
  · exact Rel.of_eq rfl rfl rfl (fun i => by simp only [regState, State.pop, State.emit, State.setCoro]; grind) hp
  · exact Rel.of_eq rfl rfl rfl (fun i => by simp only [lazyState, State.pop, State.push, State.emit, State.setCoro]; grind) hp

theorem rel_finish (s : State σ V E) (c r) (ha : Actor s (some c)) : Rel s (finish s c r) := by
  obtain ⟨st, hst⟩ := ha
  refine Rel.of_eq rfl rfl rfl (fun i => by simp only [finish, State.pop, State.push, State.emit, State.setCoro]; grind) ?_
  intro o ho
  show o ∈ toks (.final c :: s.stack.tail)
  rw [hst] at ho ⊢; simpa using ho

theorem rel_doUser (P : Prog σ V E) {s : State σ V E} {who} (hc : Core s) (ha : Actor s who) (act) : Rel s (doUser P s who act) := by
  have hlt : ∀ o c, (s.obj o).handle = some c → c < s.nc := fun o c h => (hc.hOk o c h).1
  cases act with
  | ret v => cases who with | none => exact Rel.refl _ | some c => exact rel_finish _ _ _ ha
  | throw v => cases who with | none => exact Rel.refl _ | some c => exact rel_finish _ _ _ ha
  | call k code v args =>
    simp only [doUser]
    split
    · exact rel_moveArgs _ _ (fun o ho => hc.aliveLt ho)
    · refine (rel_moveArgs args s (fun o ho => hc.aliveLt ho)).trans (Rel.trans ?_ (rel_spawn _ _ _ _ _ _ _ (.inl rfl)))
      cases who with
      | none => exact Rel.refl _
      | some p => exact rel_setCoro rfl rfl
  | await o => cases who with | none => exact Rel.refl _ | some c => exact rel_awaitObj _ _ _ _ _ ha
  | awaitExt now =>
    cases who with
    | none => cases now <;> exact Rel.refl _
    | some c =>
      cases now with
      | some r => exact Rel.trans (b := (s.emit (.extSusp c)).emit (.extRes c r)) (Rel.of_eq rfl rfl rfl (fun i => ⟨rfl, rfl⟩) (fun _ h => h)) (rel_reply ((s.emit (.extSusp c)).emit (.extRes c r)) (some c) (.res r))
      | none =>
      obtain ⟨st, hst⟩ := ha
      refine Rel.of_eq rfl rfl rfl (fun i => by simp only [doUser, State.pop, State.emit, State.setCoro]; grind) ?_
      intro o ho
      show o ∈ toks s.stack.tail
      rw [hst] at ho ⊢; simpa using ho
  | drop o =>
    simp only [doUser]
    split
    · exact (rel_reply _ _ _).trans (rel_dropObj _ _ (by simpa using hlt o))
    · exact rel_fail _ _
  | moveNew o =>
    simp only [doUser]
    split
    · rename_i hx
      exact (rel_reply _ _ _).trans (rel_moveObj _ _ (by simpa using usable_user hx) (by simpa using hc.aliveLt (usable_alive hx)))
    · exact rel_fail _ _
  | moveAssign dst src =>
    simp only [doUser]
    split
    · split
      · exact rel_reply _ _ _
      · split
        · exact (rel_reply _ _ _).trans (rel_push _ _)
        · rename_i c hh
          refine Rel.trans ?_ (rel_deref _ _ ?_)
          · refine (rel_reply s who .unit).trans (Rel.trans ?_ (rel_push _ _))
            exact rel_clear rfl (.inl rfl) (.inl rfl)
          · simp at hh; simpa [State.push, State.setObj] using hlt dst c hh
    · exact rel_fail _ _
  | mkNull k =>
    simp only [doUser]
    refine Rel.trans ?_ (rel_reply _ _ _)
    constructor <;> simp only [UQ, State.setObj] <;> grind
  | isReady o =>
    simp only [doUser]
    split
    · split
      · exact (rel_reply _ _ _).trans (rel_emit _ _)
      · split
        · exact rel_fail _ _
        · exact (rel_reply _ _ _).trans (rel_emit _ _)
    · exact rel_fail _ _
  | waitFor o b =>
    simp only [doUser]
    split
    · refine Rel.trans ?_ (rel_spawn _ _ _ _ _ _ _ (.inr (.inr ?_)))
      · exact Rel.of_eq rfl rfl rfl (fun _ => ⟨rfl, rfl⟩) (fun _ h => toks_push _ _ h)
      · simp [State.push, State.emit, State.setW]
    · exact rel_fail _ _
  | thenL o cfg =>
    simp only [doUser]
    split
    · refine Rel.trans ?_ (rel_spawn _ _ _ _ _ _ _ (.inl rfl))
      exact (rel_emit _ _).trans (rel_reply _ _ _)
    · exact rel_fail _ _
  | thenR o cfg =>
    simp only [doUser]
    split
    · rename_i hx
      have h1 := usable_user hx
      have h2 := hc.aliveLt (usable_alive hx)
      refine (rel_reply s who (.obj (s.no + 1))).trans ?_
      generalize thenKind cfg _ = k
      cases who <;> cases k <;> constructor <;>
        simp only [UQ, spawn, moveObj, State.reply, State.push, State.emit, State.setObj, State.setCoro, toks_body] <;> grind
    · exact rel_fail _ _
  | connect o q code =>
    simp only [doUser]
    split
    · refine Rel.trans ?_ (rel_spawn _ _ _ _ _ _ _ (.inr (.inr ?_)))
      · exact ((rel_emit _ _).trans (rel_reply _ _ _)).trans (rel_push _ _)
      · simp [State.push, State.emit]
    · exact rel_fail _ _
  | delCtx q =>
    simp only [doUser]
    exact (Rel.of_eq (s := s) (s' := { s with qalive := fun i => if i = q then false else s.qalive i }) rfl rfl rfl (fun _ => ⟨rfl, rfl⟩) (fun _ h => h)).trans
      ((rel_reply _ _ _).trans (rel_emit _ _))
  | note q => exact (rel_reply _ _ _).trans (rel_emit _ _)

theorem dropObj_dead (s : State σ V E) (o) : ((dropObj s o).obj o).alive = false := by
  unfold dropObj
  split
  · simp [State.setObj]
  · rw [deref_obj]; simp [State.setObj]

theorem rel_doAct (P : Prog σ V E) {s : State σ V E} {c} (hc : Core s) (ha : Actor s (some c)) (act) : Rel s (doAct P s c act) := by
  cases act with
  | u a => exact rel_doUser P hc ha a
  | markCb v => exact (rel_reply _ _ _).trans (rel_emit _ _)
  | markErr v => exact (rel_reply _ _ _).trans (rel_emit _ _)
  | ctxAlive q v => simp only [doAct]; split <;> exact (rel_reply _ _ _).trans (rel_emit _ _)
  | waitDone w r =>
    simp only [doAct]; split
    · exact Rel.of_eq (s := s) rfl rfl rfl (fun i => by simp only [State.setW, State.reply, State.setCoro]; grind) (fun _ h => h)
    · exact rel_fail _ _
  | callTmp k code v =>
    simp only [doAct]
    refine Rel.trans (b := (s.setCoro c { s.coro c with inp := .obj s.no }).emit (.cbTask c s.nc)) ?_ (rel_spawn _ _ _ _ _ _ _ (.inr (.inl ⟨c, rfl⟩)))
    exact Rel.of_eq (s := s) rfl rfl rfl (fun i => by simp only [State.emit, State.setCoro]; grind) (fun _ h => h)
  | awaitTmp o => exact rel_awaitObj _ _ _ _ _ ha
  | dropTmp o =>
    simp only [doAct]; split
    · exact (rel_reply _ _ _).trans (rel_dropObj _ _ (by simpa using fun x h => (hc.hOk o x h).1))
    · exact rel_fail _ _
  | stuck => exact rel_fail _ _

theorem Core.setCode {s : State σ V E} (h : Core s) {c} (hlt : c < s.nc) (x : Code σ V E) : Core (s.setCoro c { s.coro c with code := some x }) := by
  refine h.congr rfl rfl rfl rfl rfl ?_ ?_
  · intro i hi; have : i ≠ c := by omega
    simp [State.setCoro, this, h.corB i hi]
  · intro i; simp only [State.setCoro]; split
    · rename_i hi; subst hi
      exact ⟨rfl, rfl, rfl, rfl, rfl, rfl, rfl, rfl, by have := h.codeS i hlt; simp [this]⟩
    · exact CEq.refl _

theorem rel_step (P : Prog σ V E) {s : State σ V E} (hI : Inv s) (hu : s.ub = none) (op) (hu' : (step P s op).ub = none) : Rel s (step P s op) := by
  have hco := hI.i2.i1.core
  have hlt : ∀ o c, (s.obj o).handle = some c → c < s.nc := fun o c h => (hco.hOk o c h).1
  cases op with
  | main a =>
    have hr : step P s (.main a) = if s.mayAct then doUser P s none a else s := by simp [step, hu]
    rw [hr]; split
    · exact rel_doUser (who := none) P hco trivial a
    · exact Rel.refl _
  | fire c r =>
    simp only [step, hu]; simp only [Option.isSome_none, Bool.false_eq_true, if_false]; split
    · exact Rel.of_eq (s := s) rfl rfl rfl (fun i => by simp only [State.emit, State.push, State.setCoro]; grind) (fun _ h => toks_push _ _ h)
    · exact Rel.refl _
  | exitLoop w =>
    simp only [step, hu]; simp only [Option.isSome_none, Bool.false_eq_true, if_false]; split
    · exact Rel.of_eq rfl rfl rfl (fun _ => ⟨rfl, rfl⟩) (fun _ h => h)
    · exact Rel.refl _
  | run =>
    have hr : step P s .run = run P s := by simp [step, hu]
    rw [hr] at hu' ⊢
    have wr : ∀ w f st, s.stack = f :: st → tokOf f = [] → Rel s (waitReturn P s w) := by
      intro w f st hst hf
      have h1 : Rel s (s.setW w { s.wctx w with alive := false }) := Rel.of_eq rfl rfl rfl (fun _ => ⟨rfl, rfl⟩) (fun _ h => h)
      have h2 : Rel s (s.setW w { s.wctx w with alive := false }).pop := h1.trans (rel_popBody (.inr ⟨f, st, hst, hf⟩))
      unfold waitReturn; dsimp only; split
      · exact h2.trans ((rel_reply _ _ _).trans (rel_emit _ _))
      · split
        · exact h2.trans ((rel_reply _ _ _).trans (rel_emit _ _))
        · exact rel_fail _ _
    cases hst : s.stack with
    | nil => simp only [run, hst]; exact Rel.refl _
    | cons f st =>
      cases f with
      | body c =>
        have hclt : c < s.nc := hco.bodyLt (by simp [hst])
        simp only [run, hst]
        split
        · exact rel_fail _ _
        · split
          · exact rel_fail _ _
          · refine Rel.trans ?_ (rel_doAct P ?_ ?_ _)
            · exact rel_setCoro rfl rfl
            · exact hco.setCode hclt _
            · exact ⟨st, hst⟩
      | final c =>
        simp only [run, hst]
        split
        · exact rel_fail _ _
        · split
          · split
            · exact Rel.of_eq (s := s) rfl rfl rfl (fun i => by simp only [State.fail, State.setCoro]; grind) (fun _ h => h)
            · split
              · split
                · exact Rel.of_eq (s := s) rfl rfl rfl (fun i => by simp only [State.fail, State.setCoro]; grind) (fun _ h => h)
                · exact Rel.of_eq (s := s) rfl rfl rfl (fun i => by simp only [State.emit, State.push, State.setCoro]; grind) (fun _ h => toks_push _ _ h)
              · exact Rel.of_eq (s := s) rfl rfl rfl (fun i => by simp only [State.fail, State.setCoro]; grind) (fun _ h => h)
          · have hclt : c < s.nc := by
              apply hco.statusLt; rw [((hco.finR c).1 (by simp [hst])).1]; simp
            refine Rel.trans ?_ (rel_deref _ _ hclt)
            refine Rel.trans (b := s.setCoro c { s.coro c with selfRef := false }) (rel_setCoro rfl rfl) ?_
            exact rel_popBody (.inr ⟨_, st, hst, rfl⟩)
      | drops os =>
        cases os with
        | nil => simp only [run, hst]; exact rel_popBody (.inr ⟨_, st, hst, rfl⟩)
        | cons o' os =>
          simp only [run, hst] at hu' ⊢
          split at hu'
          · rename_i hx; rw [if_pos hx]
            have h1 : Rel (s.pop.push (.drops os)) (dropObj (s.pop.push (.drops os)) o') := rel_dropObj _ _ (hlt o')
            obtain ⟨a1,a2,a3,a4,a5,a6,a7,a8,a9,a10,a11⟩ := h1
            refine ⟨a1,a2,a3,a4,a5,a6,a7,?_,a9,a10,a11⟩
            intro o ho hm
            by_cases hoo : o = o'
            · subst hoo; exact .inr (dropObj_dead _ _)
            · refine a8 o ho ?_
              rw [hst] at hm
              show o ∈ toks (.drops os :: s.stack.tail)
              rw [hst]; simpa [hoo] using hm
          · simp [State.fail] at hu'
      | assign dst src =>
        simp only [run, hst]; split
        · rename_i hx
          simp only [Bool.and_eq_true] at hx
          have h1 := usable_user hx.1
          have h2 := usable_user hx.2
          have h3 : src < s.no := hco.aliveLt (usable_alive hx.2)
          have hp : Rel s s.pop := rel_popBody (.inr ⟨_, st, hst, rfl⟩)
          have h4 : dst < s.no := hco.aliveLt (usable_alive hx.1)
          refine hp.trans ?_
          constructor <;> simp only [UQ, State.setObj, State.pop] at * <;> grind
        · exact (rel_popBody (.inr ⟨_, st, hst, rfl⟩)).trans (rel_fail _ _)
      | waitA w tmp =>
        simp only [run, hst] at hu' ⊢
        split at hu'
        · rename_i hx; rw [if_pos hx]
          have h1 : Rel (s.pop.push (.waitB w)) (dropObj (s.pop.push (.waitB w)) tmp) := rel_dropObj _ _ (hlt tmp)
          obtain ⟨a1,a2,a3,a4,a5,a6,a7,a8,a9,a10,a11⟩ := h1
          refine ⟨a1,a2,a3,a4,a5,a6,a7,?_,a9,a10,a11⟩
          intro o ho hm
          by_cases hoo : o = tmp
          · subst hoo; exact .inr (dropObj_dead _ _)
          · refine a8 o ho ?_
            rw [hst] at hm
            show o ∈ toks (.waitB w :: s.stack.tail)
            rw [hst]; simpa [hoo] using hm
        · simp [State.fail] at hu'
      | waitB w =>
        simp only [run, hst]; split
        · exact wr w _ _ hst rfl
        · exact ((rel_popBody (.inr ⟨_, st, hst, rfl⟩)).trans (rel_push _ _)).trans (rel_emit _ _)
      | loop w =>
        simp only [run, hst]; split
        · exact wr w _ _ hst rfl
        · exact Rel.refl _

/-- Every Task object the library holds is still needed or about to be destroyed. -/
def HL (s : State σ V E) : Prop := ∀ o, o < s.no → (s.obj o).alive = true → match (s.obj o).owner with
  | .user => True
  | .param c => c < s.nc ∧ ((s.coro c).freed = false ∧ o ∈ (s.coro c).owned ∨ o ∈ toks s.stack)
  | .stk => o ∈ toks s.stack
  | .tmp _ => True

theorem HL_step (P : Prog σ V E) {s : State σ V E} (hH : HL s) (hI : Inv s) (hu : s.ub = none) (op) (hu' : (step P s op).ub = none) :
    HL (step P s op) := by
  have hR := rel_step P hI hu op hu'
  have hI' : Inv (step P s op) := by
    rcases step_inv P hI hu op with ⟨_, h⟩ | ⟨u, h, _⟩
    · exact h
    · rw [hu'] at h; simp at h
  generalize step P s op = s' at *
  intro o ho hal
  by_cases hlt : o < s.no
  · have hal0 : (s.obj o).alive = true := by
      cases hx : (s.obj o).alive with
      | true => rfl
      | false => rw [hR.dead o hlt hx] at hal; simp at hal
    have h1 := hH o hlt hal0
    rw [hR.owner o hlt]
    have ht : o ∈ toks s.stack → o ∈ toks s'.stack := by
      intro h; rcases hR.tok o hlt h with h2 | h2
      · exact h2
      · rw [hal] at h2; simp at h2
    split <;> rename_i hw <;> rw [hw] at h1 <;> dsimp only at h1
    · trivial
    · rename_i c
      obtain ⟨hc, h1⟩ := h1
      refine ⟨by have := hR.nc; omega, ?_⟩
      rcases h1 with ⟨hf, hm⟩ | h1
      · cases hx : (s'.coro c).freed with
        | false => left; exact ⟨rfl, by rw [hR.owned c hc]; exact hm⟩
        | true =>
          right
          rcases hR.fr c hc hf hx o hlt hm with h2 | h2
          · exact h2
          · rw [hal] at h2; simp at h2
      · exact .inr (ht h1)
    · exact ht h1
    · trivial
  · rcases hR.new o (by omega) ho with h | h | ⟨c, h⟩ | h | ⟨c, h1, h2, h3, h4, h5⟩
    · rw [hal] at h; simp at h
    · rw [h]; trivial
    · rw [h]; trivial
    · rcases hI'.h.tok o h with h1 | ⟨_, h1 | ⟨c, h1, _⟩⟩
      · rw [h1]; trivial
      · rw [h1]; exact h
      · rw [h1]; refine ⟨?_, .inr h⟩
        apply Nat.lt_of_not_le; intro hge
        rename_i hf
        rw [hI'.i2.i1.core.corB c hge] at hf; simp at hf
    · rw [h3]; exact ⟨h2, .inl ⟨h5, h4⟩⟩

/-- Unique ownership: no two Task objects hold the same coroutine. -/
theorem exec_UQ (P : Prog σ V E) (ops) (hu : (exec P ops).ub = none) : UQ (exec P ops) := by
  induction ops using snoc_induction with
  | h0 => intro o h hh; simp [exec, init] at hh
  | h1 l x ih =>
    rw [exec_snoc] at hu ⊢
    have hul : (exec P l).ub = none := by
      cases h : (exec P l).ub with
      | none => rfl
      | some u => simp [step, h] at hu
    exact (rel_step P (exec_inv P l hul) hul x hu).un (ih hul)

theorem exec_HL (P : Prog σ V E) (ops) (hu : (exec P ops).ub = none) : HL (exec P ops) := by
  induction ops using snoc_induction with
  | h0 => intro o ho; simp [exec, init] at ho
  | h1 l x ih =>
    rw [exec_snoc] at hu ⊢
    have hul : (exec P l).ub = none := by
      cases h : (exec P l).ub with
      | none => rfl
      | some u => simp [step, h] at hu
    exact HL_step P (ih hul) (exec_inv P l hul) hul x hu

end QCoro.Task
