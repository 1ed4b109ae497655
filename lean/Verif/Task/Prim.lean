import Verif.Task.Core

namespace QCoro.Task
variable {σ V E : Type}

/-- Step outcome with respect to an invariant: either no UB and the invariant, or a tolerated UB. -/
def OK (I : State σ V E → Prop) (s : State σ V E) : Prop :=
  (s.ub = none ∧ I s) ∨ (∃ u, s.ub = some u ∧ (u.misuse = true ∨ u = .libObj ∨ u = .stuck))

/-- Split the core hypothesis, then prove every clause of the core invariant of an updated state. -/
macro "core_grind" h:term : tactic => `(tactic| (
  obtain ⟨h1,h2,h3,h4,h5,h6,h7,h8,h9,h10,h11,h12,h13,h14,h15,h16,h17,h18,h19⟩ := $h
  simp only [pend] at h14 h15
  constructor <;> simp only [State.emit, State.push, State.pop, State.setCoro, State.setObj, State.setW, pend]
  case objB => first | done | (clear h2 h3 h4 h5 h6 h7 h8 h9 h10 h11 h12 h13 h14 h15 h16 h17 h18 h19; grind) | grind
  case deadH => first | done | (clear h3 h4 h5 h6 h7 h8 h9 h10 h11 h12 h13 h14 h15 h16 h17 h18 h19; grind) | grind
  case hOk => first | done | (clear h1 h2 h5 h6 h7 h8 h9 h10 h11 h12 h13 h14 h15 h16 h17 h18 h19; grind) | grind
  case corB => first | done | (clear h1 h2 h3 h5 h6 h7 h8 h9 h10 h11 h12 h13 h14 h15 h16 h17 h18 h19; grind) | grind
  case born => first | done | (clear h1 h2 h3 h4 h6 h7 h8 h9 h10 h11 h12 h13 h14 h15 h16 h17 h18 h19; grind) | grind
  case rcOk => first | done | (clear h1 h2 h5 h7 h8 h9 h10 h11 h12 h13 h14 h15 h16 h17 h18 h19; grind) | grind
  case frS => first | done | (clear h1 h2 h3 h4 h5 h6 h8 h9 h10 h11 h12 h13 h14 h15 h16 h17 h18 h19; grind) | grind
  case dOk => first | done | (clear h1 h2 h3 h4 h5 h6 h7 h9 h10 h11 h12 h13 h14 h15 h16 h17 h18 h19; grind) | grind
  case bodyN => first | done | (clear h1 h2 h3 h4 h5 h6 h7 h8 h11 h12 h13 h14 h15 h16 h17 h18 h19; grind) | grind
  case bodyR => first | done | (clear h1 h2 h3 h4 h5 h6 h7 h8 h11 h12 h13 h14 h15 h16 h17 h18 h19; grind) | grind
  case finN => first | done | (clear h1 h2 h3 h4 h5 h6 h7 h8 h9 h10 h13 h14 h15 h16 h17 h18 h19; grind) | grind
  case finR => first | done | (clear h1 h2 h3 h4 h5 h6 h7 h8 h9 h10 h13 h14 h15 h16 h17 h18 h19; grind) | grind
  case selfD => first | done | (clear h1 h2 h3 h4 h5 h6 h7 h8 h9 h10 h11 h12 h14 h15 h16 h17 h18 h19; grind) | grind
  case pendN => first | done | (clear h1 h2 h3 h4 h5 h6 h7 h8 h9 h10 h11 h12 h13 h17 h18 h19; grind) | grind
  case pendR => first | done | (clear h1 h2 h3 h4 h5 h6 h7 h8 h9 h10 h11 h12 h13 h17 h18 h19; grind) | grind
  case finE => first | done | (clear h1 h2 h3 h4 h5 h6 h7 h8 h9 h10 h11 h13 h14 h15 h17 h18 h19; grind) | grind
  case resD => first | done | (clear h1 h2 h3 h4 h5 h6 h7 h8 h9 h10 h11 h12 h13 h14 h15 h16 h18 h19; grind) | grind
  case initL => first | done | (clear h1 h2 h3 h4 h5 h6 h7 h8 h9 h10 h11 h12 h13 h14 h15 h16 h17 h19; grind) | grind
  case codeS => first | done | (clear h1 h2 h3 h4 h5 h6 h7 h8 h9 h10 h11 h12 h13 h14 h15 h16 h17 h18; grind) | grind))

theorem CoreD.emit {s : State σ V E} {d} (h : CoreD s d) (e) : CoreD (s.emit e) d :=
  h.congr rfl rfl rfl rfl rfl h.corB (fun _ => CEq.refl _)

/-- Updating fields of one existing coroutine the core invariant does not see. -/
theorem CoreD.setCoroEq {s : State σ V E} {d} (h : CoreD s d) {c : Nat} (hc : c < s.nc) {x : Coro σ V E}
    (hx : CEq x (s.coro c)) : CoreD (s.setCoro c x) d := by
  refine h.congr rfl rfl rfl rfl rfl ?_ ?_
  · intro i hi
    simp only [State.setCoro]
    rw [if_neg (by omega)]; exact h.corB i hi
  · intro i
    simp only [State.setCoro]
    split
    · subst_vars; exact hx
    · exact CEq.refl _

theorem CoreD.deref {s : State σ V E} {c : Nat} (h : CoreD s (some c)) (hu : s.ub = none) :
    (deref s c).ub = none ∧ Core (deref s c) := by
  obtain ⟨hlt, hf⟩ := h.dOk c rfl
  obtain ⟨hrc, hpos⟩ := h.rcOk c hlt hf
  simp at hrc
  unfold Task.deref
  simp only [hf]
  split
  · simp_all
  split
  · omega
  · -- destroyed
    rename_i h1
    have hsr : (s.coro c).selfRef = false := by
      cases hs : (s.coro c).selfRef with
      | false => rfl
      | true => simp [hs] at hrc; omega
    have hho : holders s.obj s.no c = 0 := by omega
    have hdone := h.selfD c hlt hsr
    have hnoh : ∀ o, (s.obj o).handle ≠ some c := by
      intro o ho
      by_cases hon : o < s.no
      · have := holders_pos hon ho; omega
      · have := h.objB o (by omega); simp [this] at ho
    rw [if_neg (by simp [hdone])]
    refine ⟨hu, ?_⟩
    core_grind h
  · rename_i n h1
    refine ⟨hu, ?_⟩
    core_grind h

theorem CoreD.reply {s : State σ V E} {d} (h : CoreD s d) {who : Option Nat} (hw : ∀ c, who = some c → c < s.nc)
    (r : Resp V E) : CoreD (s.reply who r) d := by
  cases who with
  | none => exact h
  | some c => exact h.setCoroEq (hw c rfl) ⟨rfl, rfl, rfl, rfl, rfl, rfl, rfl, rfl, rfl⟩

/-- Destroying an object without coroutine. -/
theorem CoreD.killNull {s : State σ V E} {d} (h : CoreD s d) {o : Nat} (ho : o < s.no)
    (hh : (s.obj o).handle = none) : CoreD (s.setObj o { s.obj o with alive := false }) d := by
  have hu : ∀ c, holders (fun i => if i = o then { s.obj o with alive := false } else s.obj i) s.no c
      = holders s.obj s.no c := fun c => by
    have := @holders_upd s.obj s.no o c { s.obj o with alive := false } ho
    simp [hcount] at this; exact this
  core_grind h

/-- Taking the handle out of an object leaves one reference to be released. -/
theorem CoreD.takeHandle {s : State σ V E} (h : Core s) {o c : Nat}
    (hh : (s.obj o).handle = some c) (al : Bool) :
    CoreD (s.setObj o { s.obj o with alive := al, handle := none }) (some c) := by
  have ho : o < s.no := by
    refine Nat.lt_of_not_le fun hn => ?_
    rw [h.objB o hn] at hh; simp at hh
  have hu : ∀ c', holders (fun i => if i = o then { s.obj o with alive := al, handle := none } else s.obj i) s.no c'
      + (if c' = c then 1 else 0) = holders s.obj s.no c' := fun c' => by
    have := @holders_upd s.obj s.no o c' { s.obj o with alive := al, handle := none } ho
    simp [hcount, hh] at this; rw [← this]; split <;> split <;> grind
  core_grind h

theorem CoreD.dropObj {s : State σ V E} (h : Core s) (hu : s.ub = none) {o : Nat} (ha : (s.obj o).alive = true) :
    (dropObj s o).ub = none ∧ Core (dropObj s o) := by
  have ho : o < s.no := by
    refine Nat.lt_of_not_le fun hn => ?_
    rw [h.objB o hn] at ha; simp at ha
  unfold Task.dropObj
  split
  · rename_i hh
    exact ⟨hu, h.killNull ho hh⟩
  · rename_i c hh
    exact (h.takeHandle hh false).deref hu

theorem CoreD.moveObj {s : State σ V E} (h : Core s) {o : Nat} (ha : (s.obj o).alive = true) (own : Owner) :
    Core (moveObj s o own) := by
  have ho : o < s.no := by
    refine Nat.lt_of_not_le fun hn => ?_
    rw [h.objB o hn] at ha; simp at ha
  have hu : ∀ c, holders (fun i => if i = s.no then { alive := true, owner := own, kind := (s.obj o).kind, handle := (s.obj o).handle } else
      (fun i => if i = o then { s.obj o with handle := none } else s.obj i) i) (s.no + 1) c
      = holders s.obj s.no c := fun c => by
    have h1 := @holders_upd s.obj s.no o c { s.obj o with handle := none } ho
    simp only [holders]
    rw [holders_ge (Nat.le_refl _)]
    simp [hcount] at h1; simp; omega
  unfold Task.moveObj
  dsimp only at hu
  obtain ⟨h1,h2,h3,h4,h5,h6,h7,h8,h9,h10,h11,h12,h13,h14,h15,h16,h17,h18,h19⟩ := h
  constructor <;> simp only [State.setObj] <;> try assumption
  all_goals first | (clear hu h4 h5 h6 h7 h8 h9 h10 h11 h12 h13 h14 h15 h16 h17 h18 h19; grind) | skip
  intro c hc hf
  rw [hu]; exact h6 c hc hf

theorem CoreD.mkNull {s : State σ V E} (h : Core s) (k : Kind) :
    Core ({ s.setObj s.no { alive := true, kind := k } with no := s.no + 1 }) := by
  have hu : ∀ c, holders (fun i => if i = s.no then { alive := true, kind := k } else s.obj i) (s.no + 1) c
      = holders s.obj s.no c := fun c => by
    simp only [holders]
    rw [holders_ge (Nat.le_refl _)]; simp
  core_grind h

theorem CoreD.spawn {s : State σ V E} (h : Core s) (P : Prog σ V E) (k : Kind) (code ps v own) :
    Core (spawn P s k code ps v own) := by
  have hu : ∀ c, holders (fun i => if i = s.no then { alive := true, owner := own, kind := k, handle := some s.nc } else s.obj i) (s.no + 1) c
      = holders s.obj s.no c + (if c = s.nc then 1 else 0) := fun c => by
    simp only [holders]
    rw [holders_ge (Nat.le_refl _)]; simp; grind
  have hz : holders s.obj s.no s.nc = 0 := by
    have : ∀ n, holders s.obj n s.nc = 0 := by
      intro n
      induction n with
      | zero => rfl
      | succ n ih =>
        simp only [holders, ih]
        rw [if_neg]; intro hh; have := (h.hOk n _ hh).1; omega
    exact this _
  have hb : s.nc ∉ bodies s.stack := fun hh => by have := h.bodyLt hh; omega
  unfold Task.spawn
  cases k <;> core_grind h

/-- Suspending the running coroutine on top of the stack for something that is not a Task. -/
theorem CoreD.suspend {s : State σ V E} {d} (h : CoreD s d) {a : Nat} {st} (hst : s.stack = .body a :: st)
    {q : Status} (hq : q = .waitNull ∨ q = .waitExt) :
    CoreD ((s.setCoro a { s.coro a with status := q }).pop) d := by
  have hr := (h.bodyR a).1 (by simp [hst])
  have hn := h.bodyN
  have ha : a ∉ bodies st := by rw [hst] at hn; simp at hn; exact hn.1
  core_grind h

/-- Registering running coroutine `a` as awaiter of `d` (and possibly starting the lazy `d`). -/
theorem CoreD.register {s s' : State σ V E} (h : Core s) {a d : Nat} {st st'} (hst : s.stack = .body a :: st)
    (hd : d < s.nc) (hnd : (s.coro d).status ≠ .done) (lz : Bool)
    (hlz : lz = true → (s.coro d).status = .initial)
    (ho : s'.obj = s.obj) (hno : s'.no = s.no) (hnc : s'.nc = s.nc)
    (hs' : s'.stack = st') (hst' : st' = if lz then .body d :: st else st)
    (hstatus : ∀ i, (s'.coro i).status = if i = a then .waitTask d else if lz = true ∧ i = d then .running else (s.coro i).status)
    (hawait : ∀ i, (s'.coro i).awaiters = if i = d then (s.coro i).awaiters ++ [a] else (s.coro i).awaiters)
    (hkind : ∀ i, (s'.coro i).kind = (s.coro i).kind) (hfin : ∀ i, (s'.coro i).fin = (s.coro i).fin)
    (hres : ∀ i, (s'.coro i).result = (s.coro i).result) (hrc : ∀ i, (s'.coro i).rc = (s.coro i).rc)
    (hsr : ∀ i, (s'.coro i).selfRef = (s.coro i).selfRef) (hfr : ∀ i, (s'.coro i).freed = (s.coro i).freed)
    (hco : ∀ i, (s'.coro i).code = (s.coro i).code) (hoth : ∀ i, i ≠ a → i ≠ d → s'.coro i = s.coro i) :
    Core s' := by
  have hr := (h.bodyR a).1 (by simp [hst])
  have hn := h.bodyN
  have ha : a ∉ bodies st := by rw [hst] at hn; simp at hn; exact hn.1
  have hp : a ∉ (s.coro d).awaiters := by
    have := h.pendR d a
    simp [pend, hnd, hr] at this; exact this
  have hlt := h.bodyLt (c := a) (by simp [hst])
  have had : lz = true → a ≠ d := by rintro hl rfl; simp [hlz hl] at hr
  have hpend : ∀ i, pend (s'.coro i) = if i = d then pend (s.coro i) ++ [a] else pend (s.coro i) := by
    intro i
    simp only [pend, hstatus, hawait, hfin]
    by_cases hia : i = a
    · subst hia; simp [hr]
    · by_cases hid : i = d
      · subst hid; cases lz <;> simp [hia, hnd]
      · simp [hia, hid]
  have hbod : bodies s'.stack = if lz then d :: bodies st else bodies st := by
    rw [hs', hst']; cases lz <;> simp
  have hfi : finals s'.stack = finals s.stack := by
    rw [hs', hst', hst]; cases lz <;> simp
  have hbs : bodies s.stack = a :: bodies st := by rw [hst]; rfl
  constructor
  · rw [ho, hno]; exact h.objB
  · rw [ho]; exact h.deadH
  · intro o c; rw [ho, hnc, hfr, hkind]; exact h.hOk o c
  · intro c hc; rw [hnc] at hc; rw [hoth c (by omega) (by omega)]; exact h.corB c hc
  · intro c hc; rw [hnc] at hc; rw [hstatus]; have := h.born c hc; grind
  · intro c; rw [hnc, ho, hno, hfr, hrc, hsr]; exact h.rcOk c
  · intro c; rw [hfr, hsr]; exact h.frS c
  · simp
  · have hbr := h.bodyR d; grind
  · intro c; have := h.bodyR c; rw [hbod, hstatus]; rw [hbs] at this; cases lz <;> grind
  · rw [hfi]; exact h.finN
  · intro c; have := h.finR c; rw [hfi, this, hstatus, hsr]; grind
  · intro c hc; rw [hnc] at hc; have := h.selfD c hc; rw [hsr, hstatus]; grind
  · intro c; rw [hpend]; have h1 := h.pendN c; have h2 := h.pendR c a
    split
    · rw [List.nodup_append]; grind
    · exact h1
  · intro c b; rw [hpend, hstatus]; have := h.pendR c b; grind
  · intro c; rw [hsr, hfin]; exact h.finE c
  · intro c; have := h.resD c; rw [hres, this, hstatus]; grind
  · intro c; have := h.initL c; rw [hkind, hstatus]; grind
  · intro c; rw [hnc, hco]; exact h.codeS c

/-- `co_await` on an unfinished eager task. -/
theorem CoreD.awaitEager {s : State σ V E} (h : Core s) {a d : Nat} {st} (hst : s.stack = .body a :: st)
    (hd : d < s.nc) (hnd : (s.coro d).status ≠ .done) (x : Coro σ V E)
    (hx : x = (s.setCoro d { s.coro d with awaiters := (s.coro d).awaiters ++ [a] }).coro a) :
    Core (((s.setCoro d { s.coro d with awaiters := (s.coro d).awaiters ++ [a] }).setCoro a
      { x with status := .waitTask d }).pop) := by
  subst hx
  refine h.register hst hd hnd false (by simp) rfl rfl rfl rfl (by simp [State.pop, State.setCoro, hst])
    ?_ ?_ ?_ ?_ ?_ ?_ ?_ ?_ ?_ ?_
  all_goals simp only [State.pop, State.setCoro]
  all_goals grind

/-- `co_await` on a fresh lazy task. -/
theorem CoreD.awaitLazy {s : State σ V E} (h : Core s) {a d : Nat} {st} (hst : s.stack = .body a :: st)
    (hd : d < s.nc) (hi : (s.coro d).status = .initial) (x : Coro σ V E)
    (hx : x = (s.setCoro d { s.coro d with awaiters := (s.coro d).awaiters ++ [a], status := .running }).coro a) :
    Core ((((s.setCoro d { s.coro d with awaiters := (s.coro d).awaiters ++ [a], status := .running }).setCoro a
      { x with status := .waitTask d }).pop).push (.body d)) := by
  subst hx
  refine h.register hst hd (by simp [hi]) true (fun _ => hi) rfl rfl rfl rfl
    (by simp [State.pop, State.push, State.setCoro, hst]) ?_ ?_ ?_ ?_ ?_ ?_ ?_ ?_ ?_ ?_
  all_goals simp only [State.pop, State.push, State.setCoro]
  all_goals grind

theorem CoreD.finish {s : State σ V E} (h : Core s) {c : Nat} {st} (hst : s.stack = .body c :: st) (r : Res V E) :
    Core (finish s c r) := by
  have hr := (h.bodyR c).1 (by simp [hst])
  have hn := h.bodyN
  have ha : c ∉ bodies st := by rw [hst] at hn; simp at hn; exact hn.1
  have hlt := h.bodyLt (c := c) (by simp [hst])
  have hs : (s.coro c).selfRef = true := by
    cases hs : (s.coro c).selfRef with
    | true => rfl
    | false => have := h.selfD c hlt hs; simp [hr] at this
  have hf : c ∉ finals s.stack := by rw [h.finR]; simp [hr]
  unfold Task.finish
  core_grind h

/-- Resuming the next awaiter. -/
theorem CoreD.wake {s : State σ V E} (h : Core s) {c a : Nat} {st rest} (hst : s.stack = .final c :: st)
    (hfin : (s.coro c).fin = a :: rest) (ha : (s.coro a).status = .waitTask c) (r : Res V E) (x : Coro σ V E)
    (hx : x = s.coro a) (i : Resp V E) :
    Core (((s.setCoro c { s.coro c with fin := rest, result := some r }).setCoro a
      { x with status := .running, inp := i }).push (.body a)) := by
  have hc := (h.finR c).1 (by simp [hst])
  have hpn := h.pendN c
  simp only [pend, hc, if_true] at hpn
  rw [hfin] at hpn
  have hne : a ≠ c := by rintro rfl; simp [hc] at ha
  have hlt := h.statusLt (c := a) (by simp [ha])
  have hab : a ∉ bodies s.stack := by rw [h.bodyR]; simp [ha]
  subst hx
  core_grind h

theorem CoreD.finalEnd {s : State σ V E} (h : Core s) {c : Nat} {st} (hst : s.stack = .final c :: st)
    (hfin : (s.coro c).fin = []) : CoreD ((s.setCoro c { s.coro c with selfRef := false }).pop) (some c) := by
  have hc := (h.finR c).1 (by simp [hst])
  have hn := h.finN
  have ha : c ∉ finals st := by rw [hst] at hn; simp at hn; exact hn.1
  have hlt := h.statusLt (c := c) (by simp [hc])
  have hnf : (s.coro c).freed = false := by
    cases hf : (s.coro c).freed with
    | false => rfl
    | true => have := h.frS c hf; simp [hc] at this
  core_grind h

theorem CoreD.fire {s : State σ V E} (h : Core s) {c : Nat} (hc : (s.coro c).status = .waitExt) (i : Resp V E) :
    Core ((s.setCoro c { s.coro c with status := .running, inp := i }).push (.body c)) := by
  have hlt := h.statusLt (c := c) (by simp [hc])
  have hab : c ∉ bodies s.stack := by rw [h.bodyR]; simp [hc]
  core_grind h

/-- Completing a move assignment into an empty destination. -/
theorem CoreD.assign {s : State σ V E} (h : Core s) {dst src : Nat} (hne : dst ≠ src)
    (ha : (s.obj dst).alive = true) (hs : (s.obj src).alive = true) (hd : (s.obj dst).handle = none)
    (hk : (s.obj dst).kind = (s.obj src).kind) :
    Core ((s.setObj dst { s.obj dst with handle := (s.obj src).handle }).setObj src
      { s.obj src with handle := none }) := by
  have lt : ∀ o, (s.obj o).alive = true → o < s.no := by
    intro o ha; refine Nat.lt_of_not_le fun hn => ?_
    rw [h.objB o hn] at ha; simp at ha
  have hu : ∀ c, holders (fun i => if i = src then { s.obj src with handle := none } else
      (fun i => if i = dst then { s.obj dst with handle := (s.obj src).handle } else s.obj i) i) s.no c
      = holders s.obj s.no c := fun c => by
    have h1 := @holders_upd s.obj s.no dst c { s.obj dst with handle := (s.obj src).handle } (lt _ ha)
    have h2 := @holders_upd (fun i => if i = dst then { s.obj dst with handle := (s.obj src).handle } else s.obj i)
      s.no src c { s.obj src with handle := none } (lt _ hs)
    simp [hcount, hd, Ne.symm hne] at h1 h2 ⊢; omega
  dsimp only at hu
  core_grind h

end QCoro.Task
