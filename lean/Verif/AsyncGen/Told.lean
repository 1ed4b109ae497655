import Verif.AsyncGen.Owner
/-! C23/C24: what the code of a coroutine body is told is what happened; it is resumed where it stopped. -/
set_option linter.unusedSimpArgs false
namespace QCoro.AGen
variable {σ V E : Type}

/-- What every coroutine was told last, as it follows from the events: `actor` is the coroutine whose action is being performed.
Specification, no counterpart in /repo. -/
structure Heard (V E : Type) where
  spec : Spec V E := {}
  actor : Nat := 0
  resp : Nat → Resp V E := fun _ => .start

/-- Specification: a producer is told that it starts, or that its co_yield is over and what the yielded variable contains now. -/
def wakeUp : Ph V E → Resp V E
  | .at v => .resumed v
  | _ => .start

/-- Specification, no counterpart in /repo. -/
def Heard.resps (H : Heard V E) : Ev V E → Nat → Resp V E
  | .spawned c => upd H.resp c .start
  | .created g o => upd (upd H.resp g .start) H.actor (.obj o)
  | .adv g _ _ => upd H.resp g (wakeUp (H.spec.ph g))
  | .ran c => upd H.resp c .unit
  | .resumed c => upd H.resp c .unit
  | .got _ k i => upd H.resp k (.iter i)
  | .gotEnd _ k i => upd H.resp k (.iter i)
  | .gotExc _ k _ e => upd H.resp k (.threw e)
  | .emptyBegin k i => upd H.resp k (.iter i)
  | .copied _ j => upd H.resp H.actor (.iter j)
  | .tested _ b => upd H.resp H.actor (.flag b)
  | .read _ _ _ v => upd H.resp H.actor (.val v)
  | .mkNull o => upd H.resp H.actor (.obj o)
  | .moved _ n => upd H.resp H.actor (.obj n)
  | .poked _ _ _ | .assigned _ _ | .swapped _ _ | .dropped _ _ | .work _ _ => upd H.resp H.actor .unit
  | .suspended _ | .yielded _ _ | .returned _ | .raised _ _ | .finished _ _ => H.resp

/-- Specification, no counterpart in /repo. -/
def Heard.next (H : Heard V E) (e : Ev V E) : Heard V E :=
  { spec := H.spec.next e, actor := (match e with | .ran c => c | _ => H.actor), resp := H.resps e }

/-- What every coroutine was told last, after `log`. Specification, no counterpart in /repo. -/
def heard (log : List (Ev V E)) : Heard V E := log.foldl Heard.next {}

theorem heard_snoc (l : List (Ev V E)) (e : Ev V E) : heard (l ++ [e]) = (heard l).next e := by simp [heard]

theorem heard_spec (l : List (Ev V E)) : (heard l).spec = Spec.after l := by
  induction l using snocInd with
  | nil => rfl
  | snoc l e ih => rw [heard_snoc, Spec.after_snoc, ← ih]; rfl

/-- Every coroutine was told what the log says. -/
def Told (s : State σ V E) : Prop := s.ub = none → ∀ c, (s.fr c).inp = (heard s.log).resp c

theorem told_fail (s : State σ V E) (u) : Told (s.fail u) := by intro h; simp [State.fail] at h

/-- An action that changes no input but answers its coroutine. -/
theorem told_answer {s s1 : State σ V E} {k : Nat} {e : Ev V E} {r : Resp V E} (h : ∀ c, (s.fr c).inp = (heard s.log).resp c)
    (hlog : s1.log = s.log) (hfr : ∀ c, c ≠ k → (s1.fr c).inp = (s.fr c).inp)
    (he : ∀ c, (heard s.log).resps e c = upd (heard s.log).resp k r c) : Told ((s1.emit e).reply k r) := by
  intro _ c
  show (upd s1.fr k { s1.fr k with inp := r } c).inp = (heard (s1.log ++ [e])).resp c
  rw [heard_snoc, hlog]
  show _ = (heard s.log).resps e c
  rw [he]
  by_cases hc : c = k
  · subst hc; simp
  · rw [upd_other _ _ hc, upd_other _ _ hc, hfr c hc, h]

theorem told_advance {s : State σ V E} (hi : Inv s) {k g : Nat} {c bad} (h : ∀ c, (s.fr c).inp = (heard s.log).resp c) (hk : (s.fr k).status = .running) :
    Told (s.advance k g c bad) := by
  have hp := hi.ph g
  have hw := hi.wf g
  have key : ((s.fr g).status = .initial ∨ (s.fr g).status = .atYield) → (s.fr g).freed = false → ∀ st : List Nat,
      Told (({ s with fr := upd (upd s.fr k { s.fr k with status := .waitGen g c }) g { upd s.fr k { s.fr k with status := .waitGen g c } g with consumer := some k, status := .running, inp := (upd s.fr k { s.fr k with status := .waitGen g c } g).wake }, stack := st } : State σ V E).emit (.adv g k c)) := by
    intro hst hf st _ x
    have hgk : g ≠ k := by intro e; subst e; rw [hk] at hst; simp at hst
    simp only [State.emit]
    rw [heard_snoc]
    show _ = upd (heard s.log).resp g (wakeUp ((heard s.log).spec.ph g)) x
    rw [heard_spec, hp]
    by_cases hx : x = g
    · subst hx
      simp only [upd_same, upd_other _ _ hgk]
      rcases hst with e | e
      · have := (hw.ini e).2.1
        simp [Frame.wake, this, absPh, hf, e, wakeUp]
      · obtain ⟨v, hv⟩ := Option.isSome_iff_exists.1 (hw.yld e).2.1
        simp [Frame.wake, hv, absPh, hf, e, wakeUp]
    · rw [upd_other _ _ hx, upd_other _ _ hx, ← h]
      simp only [upd_apply]; split <;> simp_all
  unfold State.advance
  split
  · exact told_fail _ _
  · rename_i hf
    split
    · rename_i e; exact key (.inl e) (by simpa using hf) _
    · rename_i e; exact key (.inr e) (by simpa using hf) _
    all_goals exact told_fail _ _

theorem told_transfer {s : State σ V E} (g : Nat) (h : ∀ c, (s.fr c).inp = (heard s.log).resp c) : Told (s.transfer g) := by
  unfold State.transfer
  split
  · exact told_fail _ _
  · rename_i k hk
    split
    · exact told_fail _ _
    · split
      · rename_i g' c hs
        cases c <;> simp only [State.awaitResume] <;> (repeat' split) <;>
          (refine told_answer (s := s) h rfl ?_ (fun _ => rfl); intro x hx; simp only [State.emit, upd_apply]; repeat' split) <;> simp_all
      · exact told_fail _ _

theorem told_act {s : State σ V E} (hi : Inv s) {k : Nat} (hk : (s.fr k).status = .running) (ha : (heard s.log).actor = k)
    (h : ∀ c, (s.fr c).inp = (heard s.log).resp c) (hun : (s.fr k).inp = .unit) (a : Act σ V E) : Told (s.act k a) := by
  have triv : ∀ (s1 : State σ V E) (e : Ev V E) (r : Resp V E), s1.log = s.log → s1.fr = s.fr → (heard s.log).resps e = upd (heard s.log).resp k r →
      Told ((s1.emit e).reply k r) := fun s1 e r h1 h2 h3 => told_answer h h1 (fun c _ => by rw [h2]) (fun c => by rw [h3])
  have q : ∀ (s1 : State σ V E) (e : Ev V E), s1.log = s.log → (∀ c, (s1.fr c).inp = (s.fr c).inp) → (heard s.log).resps e = (heard s.log).resp →
      ∀ c, ((s1.emit e).fr c).inp = (heard (s1.emit e).log).resp c := by
    intro s1 e h1 h2 h3 c
    show (s1.fr c).inp = (heard (s1.log ++ [e])).resp c
    rw [heard_snoc, h1, h2, h]
    show _ = (heard s.log).resps e c
    rw [h3]
  have hupd : ∀ (f : Frame σ V E), f.inp = (s.fr k).inp → ∀ c, ((upd s.fr k f) c).inp = (s.fr c).inp := by
    intro f hf c; simp only [upd_apply]; split <;> simp_all
  cases a with
  | create b =>
    simp only [State.act]
    have hkn : k ≠ s.nf := by intro e; subst e; rw [hi.fresh] at hk; cases hk
    intro _ c
    show (upd (upd s.fr s.nf { st := some b, status := .initial, isGen := true }) k _ c).inp = (heard (s.log ++ [_])).resp c
    rw [heard_snoc]
    show _ = upd (upd (heard s.log).resp s.nf .start) (heard s.log).actor (.obj s.no) c
    rw [ha]
    simp only [upd_apply]
    split
    · rfl
    · split
      · rfl
      · exact h c
  | begin o =>
    simp only [State.act]
    split
    · exact told_advance hi h hk
    · exact triv _ _ _ rfl rfl rfl
    · exact told_fail _ _
  | inc i =>
    simp only [State.act]
    split
    · exact told_advance hi h hk
    · exact told_fail _ _
    · exact told_fail _ _
  | awaitExt => simp only [State.act]; exact fun _ => q _ _ rfl (hupd _ rfl) rfl
  | yield v =>
    simp only [State.act]
    split
    · exact told_transfer k (q _ _ rfl (hupd _ rfl) rfl)
    · exact told_fail _ _
  | ret =>
    simp only [State.act]
    split
    · exact told_transfer k (q _ _ rfl (hupd _ rfl) rfl)
    · exact fun _ => q _ _ rfl (hupd _ rfl) rfl
  | throw e =>
    simp only [State.act]
    split
    · exact told_transfer k (q _ _ rfl (hupd _ rfl) rfl)
    · exact fun _ => q _ _ rfl (hupd _ rfl) rfl
  | drop o =>
    simp only [State.act]
    split
    · split
      · exact told_fail _ _
      · split
        · exact told_fail _ _
        · rename_i g _ _ _
          refine told_answer (s := s) h rfl ?_ (fun _ => by simp [Heard.resps, ha])
          intro c _; simp only [upd_apply]; split <;> simp_all
    · exact triv _ _ _ rfl rfl (by simp [Heard.resps, ha])
    · exact told_fail _ _
  | poke i v =>
    simp only [State.act]
    split
    · split
      · exact told_fail _ _
      · split
        · refine told_answer (s := s) h rfl ?_ (fun _ => by simp [Heard.resps, ha])
          intro c _; simp only [upd_apply]; split <;> simp_all
        · exact told_fail _ _
    · exact told_fail _ _
    · exact told_fail _ _
  | _ =>
    simp only [State.act]
    (repeat' split) <;>
    first
    | exact told_fail _ _
    | exact triv _ _ _ rfl rfl (by simp [Heard.resps, ha])

/-- C24. Every coroutine is told exactly what happened: its input (the result of the operation it performed, what its co_await or co_yield gave)
is the one that follows from the events. -/
theorem C24_told (P : Prog σ V E) (ops : List (Op σ)) (hu : (exec P ops).ub = none) (c : Nat) :
    ((exec P ops).fr c).inp = (heard (exec P ops).log).resp c := by
  have key : Told (exec P ops) := by
    clear hu
    induction ops using snocInd with
    | nil => intro _ c; simp [exec, heard]
    | snoc ops op ih =>
      have hi' := (good_exec P ops).inv
      rw [exec_snoc]
      generalize exec P ops = s at *
      simp only [step]
      split
      · exact ih
      · rename_i hub
        have hu : s.ub = none := by simpa using hub
        have hi := hi' hu
        have h := ih hu
        split
        · intro _ x
          simp only [State.emit]
          rw [heard_snoc]
          show _ = upd (heard s.log).resp s.nf .start x
          simp only [upd_apply]
          split
          · rfl
          · exact h x
        · rename_i k
          split
          · split
            · exact told_fail _ _
            · intro _ x
              simp only [State.emit]
              rw [heard_snoc]
              show _ = upd (heard s.log).resp k .unit x
              simp only [upd_apply]
              split
              · rfl
              · exact h x
          · exact ih
        · rename_i k rest hs
          split
          · rename_i st hst
            have h1 := hi.bodySt k (P.next st (s.fr k).inp).1 .unit
            have hrun : (s.fr k).status = .running := (hi.cur k).2 (by simp [hs])
            have h2 := h1.emitQuiet (.ran k) (h1.runnable (k := k) (by simp [hs])) rfl
            refine told_act h2 ?_ ?_ ?_ ?_ _
            · simp [State.emit, hrun]
            · simp only [State.emit]; rw [heard_snoc]; rfl
            · intro x
              simp only [State.emit]
              rw [heard_snoc]
              show _ = upd (heard s.log).resp k .unit x
              simp only [upd_apply]
              split
              · rfl
              · exact h x
            · simp [State.emit]
          · exact told_fail _ _
        · exact ih
  exact key hu c

theorem keeps_reply (s : State σ V E) (k : Nat) (r : Resp V E) (g) : ((s.reply k r).fr g).st = (s.fr g).st := by
  simp only [State.reply, upd_apply]; split <;> simp_all

theorem keeps_advance (s : State σ V E) (k g' c bad g) : ((s.advance k g' c bad).fr g).st = (s.fr g).st := by
  simp only [State.advance]; repeat' split
  all_goals (simp only [State.fail, State.emit, upd_apply]; repeat' split) <;> simp_all

theorem keeps_transfer (s : State σ V E) (g' g) : ((s.transfer g').fr g).st = (s.fr g).st := by
  simp only [State.transfer]
  split
  · rfl
  · split
    · rfl
    · split
      · rename_i c _
        cases c <;> simp only [State.awaitResume] <;> (repeat' split) <;>
          (rw [keeps_reply]; simp only [State.emit, upd_apply]; repeat' split) <;> simp_all
      · rfl

theorem keeps_act (s : State σ V E) (k : Nat) (a : Act σ V E) (g) (hg : g < s.nf) : ((s.act k a).fr g).st = (s.fr g).st := by
  have hne : g ≠ s.nf := by omega
  cases a <;> simp only [State.act] <;> (repeat' split) <;>
    first
    | rfl
    | (rw [keeps_reply]; rfl)
    | (rw [keeps_advance])
    | (rw [keeps_transfer]; simp only [State.emit, upd_apply]; split <;> simp_all)
    | (rw [keeps_reply]; simp only [State.emit, upd_apply]; split <;> simp_all)
    | (simp only [State.emit, upd_apply]; split <;> simp_all)

/-- C24. A coroutine is resumed exactly where it stopped: its local state changes only when it executes an action itself, and then as its code
says, given what it was told – whatever runs in between, also inside it. -/
theorem C24_resumes_where_it_stopped (P : Prog σ V E) (ops : List (Op σ)) (op : Op σ) (hu : (exec P ops).ub = none) (g : Nat) (st : σ)
    (hc : (Spec.after (exec P ops).log).ph g ≠ .unborn) (hst : ((exec P ops).fr g).st = some st) :
    ((exec P (ops ++ [op])).fr g).st =
      match op, (exec P ops).stack with
      | .tick, k :: _ => if k = g then some (P.next st ((exec P ops).fr g).inp).1 else some st
      | _, _ => some st := by
  have hi := (good_exec P ops).inv hu
  rw [exec_snoc]
  generalize exec P ops = s at *
  have hg : g < s.nf := by
    rw [hi.born]
    intro h
    apply hc
    have := (hi.wf g).unb h
    rw [hi.ph]
    simp [absPh, this, h]
  have hne : g ≠ s.nf := by omega
  simp only [step, hu]
  cases op with
  | spawn b => simp [State.emit, upd_other _ _ hne, hst]
  | ext c =>
    simp only [Option.isSome, Bool.false_eq_true, if_false]
    split
    · split
      · exact hst
      · simp only [State.emit, upd_apply]; split
        · rename_i h; subst h; exact hst
        · exact hst
    · exact hst
  | tick =>
    cases hs : s.stack with
    | nil => simp [hst]
    | cons k l =>
      have hrun : (s.fr k).status = .running := (hi.cur k).2 (by simp [hs])
      obtain ⟨st', hst'⟩ := Option.isSome_iff_exists.1 ((hi.wf k).st (by simp [hrun]))
      simp only [hst']
      dsimp only [Option.isSome]
      rw [if_neg (by simp), keeps_act]
      · simp only [State.emit, upd_apply]
        by_cases h : k = g
        · subst h; rw [hst] at hst'; cases hst'; simp
        · rw [if_neg (Ne.symm h), if_neg h, hst]
      · exact hg

/-- A consumer (body 0) that writes through its iterator, and a producer (body 10) that works with what it finds in its variable when resumed. -/
def writer : Prog Nat Nat Nat where
  next
    | 0, _ => (1, .create 10)
    | 1, .obj o => (2, .begin o)
    | 2, .iter i => (3, .poke i 8)
    | 3, _ => (4, .inc 0)
    | 10, _ => (11, .yield 5)
    | 11, .resumed v => (12, .work v)
    | n, _ => (n, .ret)

-- the producer co_yields 5; the consumer writes 8 through the iterator; the producer is resumed where it stopped and sees 8
example : let s := exec writer (.spawn 0 :: List.replicate 5 .tick)
    s.ub = none ∧ s.stack = [1] ∧ (s.fr 1).inp = .resumed 8 ∧ (s.fr 1).st = some 11 := by decide
example : Ev.work 1 8 ∈ (exec writer (.spawn 0 :: List.replicate 6 .tick)).log := by decide
-- something runs inside it first: its state and what it was told are untouched
example : let s := exec writer ((.spawn 0 :: List.replicate 5 .tick) ++ [.spawn 20, .tick])
    s.ub = none ∧ s.stack = [1] ∧ (s.fr 1).inp = .resumed 8 ∧ (s.fr 1).st = some 11 ∧ s.log.getLast? = some (.finished 2 none) := by decide

end QCoro.AGen
