import Mathlib.Data.Finset.Card
import Verif.Task.WaitQuit

/-!
C61: when and why coroutines stand still.  C62: nested `waitFor` calls return in reverse order.
-/
namespace QCoro.Task
variable {σ V E : Type}

/-- Coroutine `c`'s body has begun to execute. -/
def Started (c : Nat) (log : List (Ev V E)) : Prop := .started c ∈ log

theorem started_life {P : Prog σ V E} {c : Nat} (r : List (Ev V E)) (h : Chk (legal P) r.reverse) :
    Started c r.reverse ↔ life c r.reverse ≠ .unborn ∧ life c r.reverse ≠ .initial := by
  induction r with
  | nil => simp [Started]
  | cons e r ih =>
    rw [List.reverse_cons] at h ⊢
    have ih := ih h.prefix
    have hl := h r.reverse e [] rfl
    rw [life_snoc]
    unfold Started at ih ⊢
    simp only [List.mem_append, List.mem_singleton]
    rw [ih]
    cases e <;> simp only [legal] at hl <;> simp only [lifeStep] <;> try grind

/-! ### C61: nothing stands still without a reason -/

theorem awaited_started (P : Prog σ V E) (ops) {a d : Nat} (h : life a (exec P ops).log = .waitTask d)
    (hu : (exec P ops).ub = none) : Started d (exec P ops).log := by
  have hL := exec_linv P ops
  have hco := (exec_inv P ops hu).i2.i1.core
  have hok := hL.ok
  have hst := (started_life (P := P) (c := d) (exec P ops).log.reverse (by simpa using hok)).2
  rw [List.reverse_reverse] at hst
  have hp : a ∈ pend ((exec P ops).coro d) := (hco.pendR d a).2 (by rw [← hL.life]; exact h)
  apply hst
  rw [hL.life]
  constructor
  · intro hx
    have hge : (exec P ops).nc ≤ d := Nat.le_of_not_lt fun hlt => hco.born d hlt hx
    rw [hco.corB d hge] at hp; simp [pend] at hp
  · intro hx
    have h1 := exec_initial_regs P ops d hx
    rw [hL.rg d] at h1
    simp at h1
    rw [h1.2] at hp; simp at hp

/-- C61. Why a coroutine whose body has begun does not run: it has finished, or it waits for something outside (signal,
timer, reply, …), or it awaits an empty Task (and hangs), or it is in execution on the native stack, or it awaits another
coroutine, which has begun too and has not finished, or is just resuming those who await it. -/
theorem C61_reason (P : Prog σ V E) (ops) (hu : (exec P ops).ub = none) (c : Nat) (hs : Started c (exec P ops).log) :
    life c (exec P ops).log = .done ∨ life c (exec P ops).log = .waitExt ∨ life c (exec P ops).log = .waitNull ∨
    (life c (exec P ops).log = .running ∧ Frame.body c ∈ (exec P ops).stack) ∨
    ∃ d, life c (exec P ops).log = .waitTask d ∧ Started d (exec P ops).log ∧
      (life d (exec P ops).log ≠ .done ∨ Frame.final d ∈ (exec P ops).stack) := by
  have hL := exec_linv P ops
  have hco := (exec_inv P ops hu).i2.i1.core
  have h1 := (started_life (P := P) (c := c) (exec P ops).log.reverse (by simpa using hL.ok)).1
  rw [List.reverse_reverse] at h1
  obtain ⟨h2, h3⟩ := h1 hs
  cases h : life c (exec P ops).log with
  | unborn => exact absurd h h2
  | initial => exact absurd h h3
  | running =>
    have := (hco.bodyR c).2 (by rw [← hL.life]; exact h)
    exact .inr (.inr (.inr (.inl ⟨rfl, mem_bodies.1 this⟩)))
  | waitTask d =>
    refine .inr (.inr (.inr (.inr ⟨d, rfl, awaited_started P ops h hu, ?_⟩)))
    by_cases hd : life d (exec P ops).log = .done
    · right
      have hp : c ∈ pend ((exec P ops).coro d) := (hco.pendR d c).2 (by rw [← hL.life]; exact h)
      rw [hL.life] at hd
      refine mem_finals.1 ((hco.finR d).2 ⟨hd, ?_⟩)
      cases hf : ((exec P ops).coro d).selfRef with
      | true => rfl
      | false =>
        have := hco.finE d hf
        simp [pend, hd, this] at hp
    · exact .inl hd
  | waitNull => exact .inr (.inr (.inl rfl))
  | waitExt => exact .inr (.inl rfl)
  | done => exact .inl rfl

/-- C61. When control is back in the application's event loop, a coroutine that has begun has finished, waits for
something outside, hangs on an empty Task, or awaits a coroutine that has begun and not finished. -/
theorem C61_idle (P : Prog σ V E) (ops) (hu : (exec P ops).ub = none) (hs : (exec P ops).stack = []) (c : Nat)
    (hc : Started c (exec P ops).log) :
    life c (exec P ops).log = .done ∨ life c (exec P ops).log = .waitExt ∨ life c (exec P ops).log = .waitNull ∨
    ∃ d, life c (exec P ops).log = .waitTask d ∧ Started d (exec P ops).log ∧ life d (exec P ops).log ≠ .done := by
  rcases C61_reason P ops hu c hc with h | h | h | ⟨_, h⟩ | ⟨d, h1, h2, h3⟩
  · exact .inl h
  · exact .inr (.inl h)
  · exact .inr (.inr (.inl h))
  · rw [hs] at h; simp at h
  · refine .inr (.inr (.inr ⟨d, h1, h2, ?_⟩))
    rcases h3 with h3 | h3
    · exact h3
    · rw [hs] at h3; simp at h3

/-- `c` awaits, directly or through a chain of awaits, `d`. -/
inductive Awaits (log : List (Ev V E)) : Nat → Nat → Prop
  | one {c d} (h : life c log = .waitTask d) : Awaits log c d
  | more {c d e} (h : life c log = .waitTask d) (t : Awaits log d e) : Awaits log c e

theorem Awaits.trans {log : List (Ev V E)} {a b c} (h : Awaits log a b) (h2 : Awaits log b c) : Awaits log a c := by
  induction h with
  | one h => exact .more h h2
  | more h _ ih => exact .more h (ih h2)

/-- Follow a function `n` times. -/
def iter (f : Nat → Nat) : Nat → Nat → Nat
  | 0, c => c
  | n + 1, c => iter f n (f c)

theorem iter_succ (f : Nat → Nat) (n c) : iter f (n + 1) c = f (iter f n c) := by
  induction n generalizing c with
  | zero => rfl
  | succ n ih => rw [iter, ih]; rfl

/-- Whom `c` awaits (itself if nobody). -/
def target (log : List (Ev V E)) (c : Nat) : Nat := match life c log with | .waitTask d => d | _ => c

theorem iter_awaits {log : List (Ev V E)} {c} (n : Nat) (h : ∀ k ≤ n, ∃ d, life (iter (target log) k c) log = .waitTask d) :
    Awaits log c (iter (target log) (n + 1) c) := by
  induction n with
  | zero =>
    obtain ⟨d, hd⟩ := h 0 (Nat.le_refl _)
    have : iter (target log) 1 c = d := by simp [iter, target] at hd ⊢; rw [hd]
    rw [this]; exact .one hd
  | succ n ih =>
    obtain ⟨d, hd⟩ := h (n + 1) (Nat.le_refl _)
    refine (ih fun k hk => h k (by omega)).trans ?_
    have : iter (target log) (n + 1 + 1) c = d := by rw [iter_succ]; simp [target, hd]
    rw [this]; exact .one hd

/-- C61. When control is back in the application's event loop, a coroutine that has begun and not finished is kept by
something outside: following who awaits whom from it one comes to a coroutine that waits for something outside, or for an
empty Task, or into a circle of coroutines awaiting each other. -/
theorem C61_blocked_from_outside (P : Prog σ V E) (ops) (hu : (exec P ops).ub = none) (hs : (exec P ops).stack = []) (c : Nat)
    (hc : Started c (exec P ops).log) (hn : life c (exec P ops).log ≠ .done) :
    ∃ e, (e = c ∨ Awaits (exec P ops).log c e) ∧
      (life e (exec P ops).log = .waitExt ∨ life e (exec P ops).log = .waitNull ∨ Awaits (exec P ops).log e e) := by
  apply Classical.byContradiction
  intro hno
  have hno : ∀ e, (e = c ∨ Awaits (exec P ops).log c e) → ¬ (life e (exec P ops).log = .waitExt ∨ life e (exec P ops).log = .waitNull ∨ Awaits (exec P ops).log e e) :=
    fun e h1 h2 => hno ⟨e, h1, h2⟩
  -- everything reachable from `c` awaits a coroutine
  have key : ∀ k, (iter (target (exec P ops).log) k c = c ∨ Awaits (exec P ops).log c (iter (target (exec P ops).log) k c)) ∧
      Started (iter (target (exec P ops).log) k c) (exec P ops).log ∧ life (iter (target (exec P ops).log) k c) (exec P ops).log ≠ .done ∧
      ∃ d, life (iter (target (exec P ops).log) k c) (exec P ops).log = .waitTask d := by
    have one : ∀ x, (x = c ∨ Awaits (exec P ops).log c x) → Started x (exec P ops).log → life x (exec P ops).log ≠ .done →
        ∃ d, life x (exec P ops).log = .waitTask d ∧ Started d (exec P ops).log ∧ life d (exec P ops).log ≠ .done := by
      intro x hx h1 h2
      rcases C61_idle P ops hu hs x h1 with h | h | h | ⟨d, h⟩
      · exact absurd h h2
      · exact absurd (.inl h) (hno x hx)
      · exact absurd (.inr (.inl h)) (hno x hx)
      · exact ⟨d, h⟩
    intro k
    induction k with
    | zero =>
      obtain ⟨d, h⟩ := one c (.inl rfl) hc hn
      exact ⟨.inl rfl, hc, hn, d, h.1⟩
    | succ k ih =>
      obtain ⟨i1, i2, i3, d, i4⟩ := ih
      obtain ⟨d', j1, j2, j3⟩ := one _ i1 i2 i3
      have hd : d' = d := by rw [i4] at j1; cases j1; rfl
      subst hd
      have he : iter (target (exec P ops).log) (k + 1) c = d' := by rw [iter_succ]; simp [target, i4]
      rw [he]
      have hr : Awaits (exec P ops).log c d' := by
        rcases i1 with h | h
        · rw [h] at j1; exact .one j1
        · exact h.trans (.one j1)
      obtain ⟨d2, k1, _⟩ := one d' (.inr hr) j2 j3
      exact ⟨.inr hr, j2, j3, d2, k1⟩
  -- finitely many coroutines: the chain meets itself
  have hco := (exec_inv P ops hu).i2.i1.core
  have hL := exec_linv P ops
  have hlt : ∀ k, iter (target (exec P ops).log) k c < (exec P ops).nc := fun k => by
    obtain ⟨_, _, _, d, h⟩ := key k
    exact hco.statusLt (by rw [← hL.life, h]; simp)
  obtain ⟨i, hi, j, hj, hij, heq⟩ := Finset.exists_ne_map_eq_of_card_lt_of_maps_to (s := Finset.range ((exec P ops).nc + 1)) (t := Finset.range (exec P ops).nc)
    (f := fun k => iter (target (exec P ops).log) k c) (by simp) (by intro k _; simpa using hlt k)
  have main : ∀ i j, i < j → iter (target (exec P ops).log) i c = iter (target (exec P ops).log) j c → False := by
    intro i j hlt heq
    have hadd : ∀ n m, iter (target (exec P ops).log) (n + m) c = iter (target (exec P ops).log) m (iter (target (exec P ops).log) n c) := by
      intro n m
      induction m with
      | zero => rfl
      | succ m ih => rw [← Nat.add_assoc, iter_succ, iter_succ, ih]
    obtain ⟨m, rfl⟩ : ∃ m, j = i + (m + 1) := ⟨j - i - 1, by omega⟩
    have hc2 := iter_awaits (log := (exec P ops).log) (c := iter (target (exec P ops).log) i c) m (fun k _ => by
      rw [← hadd]; exact (key (i + k)).2.2.2)
    rw [← hadd, ← heq] at hc2
    exact hno _ (key i).1 (.inr (.inr hc2))
  rcases Nat.lt_or_gt_of_ne hij with h | h
  · exact main i j h heq
  · exact main j i h heq.symm

/-- C61. So if nothing outside is pending, nobody awaits an empty Task and nobody awaits himself, every coroutine that has
begun has finished: the library loses no wake-up. -/
theorem C61_all_finish (P : Prog σ V E) (ops) (hu : (exec P ops).ub = none) (hs : (exec P ops).stack = [])
    (h1 : ∀ c, life c (exec P ops).log ≠ .waitExt) (h2 : ∀ c, life c (exec P ops).log ≠ .waitNull)
    (h3 : ∀ c, ¬ Awaits (exec P ops).log c c) (c : Nat) (hc : Started c (exec P ops).log) :
    ∃ r, fins c (exec P ops).log = [r] := by
  have hL := exec_linv P ops
  have hd : life c (exec P ops).log = .done := by
    apply Classical.byContradiction
    intro hn
    obtain ⟨e, _, h | h | h⟩ := C61_blocked_from_outside P ops hu hs c hc hn
    · exact h1 e h
    · exact h2 e h
    · exact h3 e h
  have hr := hL.rs c
  have hco := (exec_inv P ops hu).i2.i1.core
  have h4 := (hco.resD c).2 (by rw [← hL.life]; exact hd)
  obtain ⟨r, hr'⟩ := Option.isSome_iff_exists.1 h4
  rw [hr'] at hr
  simp only [ResOK] at hr
  obtain ⟨r0, h5, _⟩ := hr
  exact ⟨r0, h5⟩

/-! ### C62: nested `waitFor` calls return in reverse order -/

theorem ret_step {P : Prog σ V E} {s : State σ V E} {op w x} (hn : .waitRet w x ∉ s.log) (hy : .waitRet w x ∈ (step P s op).log) :
    (∃ f st, s.stack = f :: st ∧ wOf f = some w) ∧ (step P s op).log = s.log ++ [.waitRet w x] := by
  have add : ∀ evs, (step P s op).log = s.log ++ evs → .waitRet w x ∈ evs := by
    intro evs h; rw [h] at hy; simpa [hn] using hy
  cases lib_cases P s op with
  | quiet h =>
    obtain ⟨evs, h1, h2⟩ := h
    have := h2 _ (add evs h1); simp [evW] at this
  | act c st code hop hst hf hc ha h =>
    exfalso
    generalize (codeNext P (s.coro c).owned code (s.coro c).inp).2 = a at ha h
    have hal : (actState P s c code).log = s.log := rfl
    cases a <;> simp only [actL, Bool.false_eq_true] at ha
    · have := add _ (by rw [h]; simp only [doAct]; show (State.reply _ _ _).log ++ _ = _; rw [reply_log, hal]); simp at this
    · have := add _ (by rw [h]; simp only [doAct]; show (State.reply _ _ _).log ++ _ = _; rw [reply_log, hal]); simp at this
    · rename_i q v
      by_cases hq : (actState P s c code).qalive q = true
      · have := add _ (by rw [h]; simp only [doAct, hq, if_true]; show (State.reply _ _ _).log ++ _ = _; rw [reply_log, hal]); simp at this
      · have := add _ (by rw [h]; simp only [doAct, hq]; show (State.reply _ _ _).log ++ _ = _; rw [reply_log, hal]); simp at this
    · rename_i k code' v
      obtain ⟨evs, h1, h2⟩ := (eff2_spawn P ((((actState P s c code).setCoro c { (actState P s c code).coro c with inp := .obj (actState P s c code).no }).emit (.cbTask c (actState P s c code).nc))) k (.user code') [] v (.tmp c) none).log
      have := add (_ :: evs) (by rw [h]; simp only [doAct]; rw [h1]; show (s.log ++ _) ++ evs = _; rw [List.append_assoc]; rfl)
      simp at this
      have := (h2 _ this).l; simp [evW] at this
  | enter w' st hop hst hnf h =>
    have := add [.loopEnter w'] (by rw [h]; rfl); simp at this
  | exit w' hop hl hm h =>
    have := add [.extExit w'] (by rw [h]; rfl); simp at this
  | ret w' st hop hst h =>
    have hlog : ∀ r, (step P s op).log = s.log ++ [.waitRet w' r] → (∃ f st, s.stack = f :: st ∧ wOf f = some w) ∧ (step P s op).log = s.log ++ [.waitRet w x] := by
      intro r h1
      have := add _ h1
      simp at this
      obtain ⟨rfl, rfl⟩ := this
      refine ⟨?_, h1⟩
      rcases hst with ⟨h2, _⟩ | ⟨h2, _⟩
      · exact ⟨_, _, h2, rfl⟩
      · exact ⟨_, _, h2, rfl⟩
    unfold waitReturn at h; dsimp only at h
    split at h
    · exact hlog _ (by rw [h]; show (State.reply _ _ _).log ++ _ = _; rw [reply_log]; rfl)
    · split at h
      · exact hlog _ (by rw [h]; show (State.reply _ _ _).log ++ _ = _; rw [reply_log]; rfl)
      · exfalso; have := add [] (by rw [h]; simp [State.fail]); simp at this

theorem exec_nw_mono (P : Prog σ V E) (l m) (hu : (exec P (l ++ m)).ub = none) : (exec P l).nw ≤ (exec P (l ++ m)).nw := by
  induction m using QCoro.snocInd with
  | nil => simp
  | snoc m o ih =>
    rw [← List.append_assoc] at hu ⊢
    have hul : (exec P (l ++ m)).ub = none := exec_ub_prefix _ [o] hu
    have := ih hul
    rw [exec_snoc]
    rcases step_nw P (s := exec P (l ++ m)) o hul with h | ⟨h, _⟩ <;> omega

theorem waits_succ {P : Prog σ V E} {l op who w r h b} (hm : Waits P (exec P l) op who w r h b) (m)
    (hu : (exec P (l ++ op :: m)).ub = none) : w < (exec P (l ++ op :: m)).nw := by
  obtain ⟨oo, hT⟩ := waits_exec hm hu
  exact hT.wlt

/-- C62. Calls of `waitFor` return in reverse order: if call `w2` was made while call `w1` had not returned, then `w1`
does not return before `w2` has. -/
theorem C62_nested_waits_return_in_reverse_order {P : Prog σ V E} {l op1 m op2 n who1 w1 r1 h1 b1 who2 w2 r2 h2 b2}
    (c1 : Waits P (exec P l) op1 who1 w1 r1 h1 b1) (c2 : Waits P (exec P (l ++ op1 :: m)) op2 who2 w2 r2 h2 b2)
    (hu : (exec P ((l ++ op1 :: m) ++ op2 :: n)).ub = none)
    (hn : ∀ y, .waitRet w1 y ∉ (exec P (l ++ op1 :: m)).log)
    {pre x post} (hl : (exec P ((l ++ op1 :: m) ++ op2 :: n)).log = pre ++ .waitRet w1 x :: post) : ∃ y, .waitRet w2 y ∈ pre := by
  have hlt : w1 < w2 := by
    have hu1 := exec_ub_prefix _ _ hu
    have := waits_succ c1 m hu1
    cases c2; exact this
  -- the step in which `w1` returns
  have main : ∀ k pre x post, (exec P ((l ++ op1 :: m) ++ op2 :: k)).ub = none →
      (exec P ((l ++ op1 :: m) ++ op2 :: k)).log = pre ++ .waitRet w1 x :: post → ∃ y, .waitRet w2 y ∈ pre := by
    intro k
    induction k using QCoro.snocInd with
    | nil =>
      intro pre x post hu hl
      exfalso
      have hu1 := exec_ub_prefix _ _ hu
      have hs : exec P ((l ++ op1 :: m) ++ [op2]) = step P (exec P (l ++ op1 :: m)) op2 := exec_snoc _ _ _
      have hno : .waitRet w1 x ∈ (step P (exec P (l ++ op1 :: m)) op2).log := by rw [← hs, hl]; simp
      obtain ⟨_, hlog⟩ := ret_step (hn x) hno
      -- `op2` makes call `w2`, so it returns from nothing
      have hnw := waits_succ c2 [] hu
      rw [hs] at hnw
      have hw2 : w2 = (exec P (l ++ op1 :: m)).nw := by cases c2; rfl
      rcases step_nw P op2 hu1 with h | ⟨_, _, _, _, evs, _, h⟩
      · omega
      · rw [h] at hlog; simp at hlog
    | snoc k o ih =>
      intro pre x post hu hl
      have e1 : (l ++ op1 :: m) ++ op2 :: (k ++ [o]) = ((l ++ op1 :: m) ++ op2 :: k) ++ [o] := by simp
      rw [e1] at hu hl
      have huk := exec_ub_prefix _ [o] hu
      rw [exec_snoc] at hl
      by_cases hx : .waitRet w1 x ∈ (exec P ((l ++ op1 :: m) ++ op2 :: k)).log
      · obtain ⟨p, q, hpq⟩ := List.append_of_mem hx
        obtain ⟨evs, hlog⟩ := step_log P (exec P ((l ++ op1 :: m) ++ op2 :: k)) o
        obtain ⟨y, hy⟩ := ih p x q huk hpq
        -- it returns only once
        have hone := C13_returns_at_most_once (ops' := m ++ op2 :: (k ++ [o])) c1 (by
          have : l ++ op1 :: (m ++ op2 :: (k ++ [o])) = ((l ++ op1 :: m) ++ op2 :: k) ++ [o] := by simp
          rw [this]; exact hu) (pre := pre) (post := post) (x := x) (by
          have : l ++ op1 :: (m ++ op2 :: (k ++ [o])) = ((l ++ op1 :: m) ++ op2 :: k) ++ [o] := by simp
          rw [this, exec_snoc]; exact hl) x
        have hsame : pre ++ .waitRet w1 x :: post = p ++ .waitRet w1 x :: (q ++ evs) := by rw [← hl, hlog, hpq]; simp
        have hpp : pre = p := by
          rcases List.append_eq_append_iff.1 hsame with ⟨z, g1, g2⟩ | ⟨z, g1, g2⟩
          · cases z with
            | nil => simpa using g1.symm
            | cons z0 z => simp at g2; exfalso; apply hone.2; rw [g2.2]; simp
          · cases z with
            | nil => simpa using g1
            | cons z0 z =>
              simp at g2; exfalso; apply hone.1; rw [g1, ← g2.1]; simp
        exact ⟨y, by rw [hpp]; exact hy⟩
      · obtain ⟨⟨f, st, hst, hf⟩, hlog⟩ := ret_step hx (by rw [hl]; simp)
        have hpre : pre = (exec P ((l ++ op1 :: m) ++ op2 :: k)).log := by
          rw [hl] at hlog
          rcases List.eq_nil_or_concat post with rfl | ⟨q, z, rfl⟩
          · exact (List.append_inj' hlog rfl).1
          · exfalso; apply hx
            rw [List.concat_eq_append] at hlog
            have : (pre ++ .waitRet w1 x :: q) ++ [z] = (exec P ((l ++ op1 :: m) ++ op2 :: k)).log ++ [.waitRet w1 x] := by simpa using hlog
            have := (List.append_inj' this rfl).1
            rw [← this]; simp
        rw [hpre]
        refine (C13_returned_iff_gone c2 huk).2 ?_
        rintro ⟨g, hg, hg2⟩
        have hsort := (exec_inv P _ huk).i2.w.sorted
        rw [hst] at hsort hg
        have hw : waits (f :: st) = w1 :: waits st := by simp [waits, hf]
        rw [hw] at hsort
        rcases List.mem_cons.1 hg with rfl | hg
        · rw [hf] at hg2; cases hg2; omega
        · have := (List.pairwise_cons.1 hsort).1 w2 (by simp only [waits, List.mem_filterMap]; exact ⟨g, hg, hg2⟩)
          omega
  exact main n pre x post hu hl
