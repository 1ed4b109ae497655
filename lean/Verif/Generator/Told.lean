import Verif.Generator.Owner
/-! C19/C20: what the code of a generator body is told is what happened. -/
namespace QCoro.Gen
variable {σ V E : Type}

/-- What the code that has control after event `e` was told: the result of the call it made, or the fact that it was started or resumed.
Specification, no counterpart in /repo. -/
def answer : Ev V E → Resp V E
  | .created _ o => .obj o
  | .adv _ _ none => .start
  | .adv _ _ (some v) => .resumed v
  | .got _ i => .iter i
  | .gotEnd _ i => .iter i
  | .gotExc _ _ e => .threw e
  | .incEnd i => .iter i
  | .mkEnd i => .iter i
  | .copied _ j => .iter j
  | .cmp _ _ b => .flag b
  | .read _ v => .val v
  | .mkNull o => .obj o
  | .moved _ n => .obj n
  | .ran _ | .yielded _ _ | .returned _ | .raised _ _ | .poked _ _ | .assigned _ _ | .dropped _ _ | .work _ _ => .unit

/-- The code on top of the stack was told what happened last. -/
def Told (s : State σ V E) : Prop :=
  s.ub = none → ∀ g c rest, s.stack = (g, c) :: rest → ∃ e, s.log.getLast? = some e ∧ (s.fr g).inp = answer e

theorem told_fail (s : State σ V E) (u) : Told (s.fail u) := by intro h; simp [State.fail] at h

theorem told_reply (s : State σ V E) (e : Ev V E) (r : Resp V E) (h : answer e = r) : Told ((s.emit e).reply r) := by
  intro hu g c rest hs
  subst h
  unfold State.reply at hs ⊢
  cases hst : (s.emit e).stack with
  | nil => rw [hst] at hs; simp at hs; rw [hst] at hs; simp at hs
  | cons a l =>
    obtain ⟨g', c'⟩ := a
    simp only [hst] at hs ⊢
    simp at hs
    obtain ⟨⟨rfl, rfl⟩, rfl⟩ := hs
    exact ⟨e, by simp [State.emit], by simp⟩

theorem told_resume (s : State σ V E) (g c bad) (hi : (s.fr g).status = .initial → (s.fr g).value = none) : Told (s.resume g c bad) := by
  simp only [State.resume]
  split
  · exact told_fail _ _
  · split
    · rename_i hst
      intro hu g' c' rest hs
      simp at hs
      obtain ⟨⟨rfl, rfl⟩, rfl⟩ := hs
      exact ⟨_, by simp [State.emit]; rfl, by simp [answer, hi hst]⟩
    · split
      · rename_i hv
        intro hu g' c' rest hs
        simp at hs
        obtain ⟨⟨rfl, rfl⟩, rfl⟩ := hs
        exact ⟨_, by simp [State.emit]; rfl, by simp [answer, hv]⟩
      · exact told_fail _ _
    all_goals exact told_fail _ _

theorem told_api (s : State σ V E) (a : Api σ V) (hi : ∀ g, (s.fr g).status = .initial → (s.fr g).value = none) : Told (s.api a) := by
  cases a <;> simp only [State.api] <;> (repeat' split) <;>
    first
    | exact told_fail _ _
    | exact told_reply _ _ _ rfl
    | exact told_resume _ _ _ _ (hi _)

theorem told_after (s : State σ V E) (g c) : Told (s.after g c) := by
  cases c <;> simp only [State.after, State.afterInc, State.afterBegin] <;> (repeat' split) <;>
    first
    | exact told_fail _ _
    | exact told_reply _ _ _ rfl

theorem told_body (s : State σ V E) (g c rest) (a : Act σ V E) (hi : ∀ g, (s.fr g).status = .initial → (s.fr g).value = none) : Told (s.body g c rest a) := by
  cases a with
  | api a => exact told_api s a hi
  | yield v => exact told_after _ _ _
  | ret => exact told_after _ _ _
  | throw e => exact told_after _ _ _

/-- C20. What the code of a body is told is what happened: whenever a body has control, its input (the result of the call it made, or how it was
started or resumed) is the one that goes with the last event. -/
theorem C20_told (P : Prog σ V E) (ops : List (Op σ V)) (hu : (exec P ops).ub = none) (g : Nat) (c : Call) (rest : List (Nat × Call))
    (hs : (exec P ops).stack = (g, c) :: rest) : ∃ e, (exec P ops).log.getLast? = some e ∧ ((exec P ops).fr g).inp = answer e := by
  have key : Told (exec P ops) := by
    clear hs hu
    induction ops using snocInd with
    | nil => intro _ g c rest h; simp [exec] at h
    | snoc ops op ih =>
      have hi' := (good_exec P ops).inv
      rw [exec_snoc]
      generalize exec P ops = s at *
      simp only [step]
      split
      · exact ih
      · rename_i hub
        have hi : ∀ g, (s.fr g).status = .initial → (s.fr g).value = none := fun g h => (((hi' (by simpa using hub)).wf g).ini h).1
        split
        · exact told_api _ _ hi
        · split
          · apply told_body
            intro g'
            simp only [State.emit, upd_apply]
            split
            · rename_i h; subst h; exact hi _
            · exact hi g'
          · exact told_fail _ _
        · exact ih
  exact key hu g c rest hs

theorem keeps_reply (s : State σ V E) (r : Resp V E) (g) : ((s.reply r).fr g).st = (s.fr g).st := by
  unfold State.reply
  split
  · rfl
  · rename_i g' c' l hs
    by_cases h : g = g'
    · subst h; simp
    · simp [upd_other _ _ h]

theorem keeps_resume (s : State σ V E) (g' c bad g) : ((s.resume g' c bad).fr g).st = (s.fr g).st := by
  by_cases h : g = g'
  · subst h; simp only [State.resume]; repeat' split
    all_goals simp [State.fail]
  · simp only [State.resume]; repeat' split
    all_goals simp [State.fail, upd_other _ _ h]

theorem keeps_after (s : State σ V E) (g' c g) : ((s.after g' c).fr g).st = (s.fr g).st := by
  cases c <;> simp only [State.after, State.afterInc, State.afterBegin] <;> (repeat' split) <;>
    first
    | rfl
    | (rw [keeps_reply]; rfl)

theorem keeps_api (s : State σ V E) (a : Api σ V) (g) (hg : g < s.nf) : ((s.api a).fr g).st = (s.fr g).st := by
  have hne : g ≠ s.nf := by omega
  cases a <;> simp only [State.api] <;> (repeat' split) <;>
    first
    | rfl
    | (rw [keeps_reply]; rfl)
    | (rw [keeps_resume])
    | (rw [keeps_reply]; simp only [State.emit, upd_apply]; split <;> simp_all)

/-- C20. A body is resumed exactly where it stopped: its local state changes only when it executes an action itself, and then as its code says,
given what it was told. -/
theorem C20_resumes_where_it_stopped (P : Prog σ V E) (ops : List (Op σ V)) (op : Op σ V) (hu : (exec P ops).ub = none) (g : Nat) (st : σ)
    (hc : (Spec.after (exec P ops).log).ph g ≠ .unborn) (hst : ((exec P ops).fr g).st = some st) :
    ((exec P (ops ++ [op])).fr g).st =
      match op, (exec P ops).stack with
      | .tick, (g', _) :: _ => if g' = g then some (P.next st ((exec P ops).fr g).inp).1 else some st
      | _, _ => some st := by
  have hi := (good_exec P ops).inv hu
  rw [exec_snoc]
  generalize exec P ops = s at *
  have hg : g < s.nf := by
    rw [hi.born]
    intro h
    apply hc
    have := (hi.wf g).unb h
    rw [hi.ph]
    simp [absPh, this, h]
  simp only [step, hu]
  cases op with
  | main a =>
    cases hs : s.stack with
    | nil => simp [keeps_api s a g hg, hst]
    | cons x l => simp [hst]
  | tick =>
    cases hs : s.stack with
    | nil => simp [hst]
    | cons x l =>
      obtain ⟨g', c⟩ := x
      have hb : ∀ (s1 : State σ V E) (a : Act σ V E), g < s1.nf → ((s1.body g' c l a).fr g).st = (s1.fr g).st := by
        intro s1 a h1
        cases a with
        | api a => exact keeps_api s1 a g h1
        | _ =>
          simp only [State.body]
          rw [keeps_after]
          simp only [State.emit, upd_apply]
          split <;> simp_all
      have hrun : (s.fr g').status = .running := (hi.run g').2 (by simp [hs])
      have := (hi.wf g').st (by simp [hrun])
      obtain ⟨st', hst'⟩ := Option.isSome_iff_exists.1 this
      simp only [hst']
      dsimp only [Option.isSome]
      rw [if_neg (by simp), hb]
      · simp only [State.emit, upd_apply]
        by_cases h : g' = g
        · subst h; rw [hst] at hst'; cases hst'; simp
        · rw [if_neg (Ne.symm h), if_neg h, hst]
      · exact hg

/-- A body that iterates over another generator: it creates it, calls begin() and end(), compares, reads and yields what it read. -/
def outer : Prog Nat Nat Nat where
  next
    | 0, _ => (1, .api (.create 10))
    | 1, .obj o => (2, .api (.begin o))
    | 2, .iter i => (20 + i, .api .endIt)
    | 20, .iter j => (3, .api (.cmp 0 j))
    | 3, .flag b => if b then (9, .ret) else (4, .api (.deref 0))
    | 4, .val v => (5, .yield v)
    | 5, .resumed v => (6, .api (.work v))
    | 10, _ => (11, .yield 5)
    | n, _ => (n, .ret)

-- the outer body (generator 0) has control after the comparison of its iterators: it was told that they differ
example : let s := exec outer (.main (.create 0) :: .main (.begin 0) :: List.replicate 5 .tick)
    s.ub = none ∧ s.stack = [(0, .begin 0)] ∧ s.log.getLast? = some (.cmp 0 1 false) ∧ (s.fr 0).inp = .flag false ∧ (s.fr 0).st = some 3 := by decide
-- … reads 5 and yields it; its consumer writes 8 through the iterator; it is resumed where it stopped and sees 8
example : let s := exec outer ((.main (.create 0) :: .main (.begin 0) :: List.replicate 7 .tick) ++ [.main (.poke 2 8), .main (.inc 2)])
    s.ub = none ∧ s.stack = [(0, .inc 2)] ∧ (s.fr 0).inp = .resumed 8 ∧ (s.fr 0).st = some 5 := by decide

end QCoro.Gen
