import Verif.Generator.Owner
/-! # C84: how deep the native stack gets (generators) -/
set_option linter.unusedSimpArgs false

namespace QCoro.Gen
open QCoro
variable {σ V E : Type}

/-- How an event changes the number of nested activations: `begin()` and `++` nest the body, `co_yield`, `co_return` and an exception return from it.
Specification, no counterpart in /repo. -/
def nests : Ev V E → Int
  | .adv _ _ _ => 1
  | .yielded _ _ => -1
  | .returned _ => -1
  | .raised _ _ => -1
  | _ => 0

/-- The sum over the history. Specification, no counterpart in /repo. -/
def depth (l : List (Ev V E)) : Int := (l.map nests).sum

theorem depth_snoc (l : List (Ev V E)) (e : Ev V E) : depth (l ++ [e]) = depth l + nests e := by
  simp [depth]

/-- The number of activations is the sum. -/
def D (s : State σ V E) : Prop := (s.stack.length : Int) = depth s.log

theorem D_congr {s s' : State σ V E} (h : D s) (h1 : s'.stack.length = s.stack.length) (h2 : s'.log = s.log) : D s' := by
  unfold D at *; rw [h1, h2, h]
theorem D_emit {s : State σ V E} {e : Ev V E} (h : D s) (he : nests e = 0) : D (s.emit e) := by
  unfold D State.emit at *; dsimp only; rw [depth_snoc, he, h]; omega
theorem D_fail {s : State σ V E} {u : Ub} (h : D s) : D (s.fail u) := h
theorem D_reply {s : State σ V E} {r : Resp V E} (h : D s) : D (s.reply r) := by
  unfold State.reply; split <;> exact h

theorem D_resume {s : State σ V E} {g : Nat} {c : Call} {bad : Ub} (h : D s) : D (s.resume g c bad) := by
  unfold State.resume
  dsimp only
  split
  · exact h
  · split
    · unfold D State.emit at *; dsimp only; rw [depth_snoc, ← h]; simp [nests]
    · split
      · unfold D State.emit at *; dsimp only; rw [depth_snoc, ← h]; simp [nests]
      · exact h
    all_goals exact h

theorem D_after {s : State σ V E} {g : Nat} {c : Call} (h : D s) : D (s.after g c) := by
  cases c with
  | inc i =>
    simp only [State.after, State.afterInc]
    repeat' split
    all_goals first
      | exact h
      | exact D_reply (D_emit (D_congr h rfl rfl) rfl)
  | begin o =>
    simp only [State.after, State.afterBegin]
    repeat' split
    all_goals first
      | exact h
      | exact D_reply (D_emit (D_congr h rfl rfl) rfl)

theorem D_api {s : State σ V E} (a : Api σ V) (h : D s) : D (s.api a) := by
  cases a <;> simp only [State.api] <;> repeat' split
  all_goals first
    | exact h
    | exact D_resume h
    | exact D_reply (D_emit (D_congr h rfl rfl) rfl)

theorem D_pop {s s' : State σ V E} {x : Nat × Call} {rest : List (Nat × Call)} {e : Ev V E} (h : D s) (hs : s.stack = x :: rest) (h1 : s'.stack = rest)
    (h2 : s'.log = s.log) (he : nests e = -1) : D (s'.emit e) := by
  unfold D State.emit at *
  dsimp only
  rw [depth_snoc, he, h2, ← h, h1, hs]
  simp; omega

theorem D_exec (P : Prog σ V E) (ops : List (Op σ V)) : D (exec P ops) := by
  induction ops using snocInd with
  | nil => rfl
  | snoc ops op ih =>
    rw [exec_snoc]
    generalize exec P ops = s at *
    unfold step
    split
    · exact ih
    split
    · exact D_api _ ih
    · rename_i g c rest hs
      split
      · rename_i st _
        dsimp only
        generalize P.next st _ = r
        have h1 : D (({ s with fr := upd s.fr g { s.fr g with st := some r.1, inp := .unit } } : State σ V E).emit (.ran g)) := D_emit (D_congr ih rfl rfl) rfl
        cases r.2 with
        | api a => exact D_api a h1
        | yield v => exact D_after (D_pop h1 hs rfl rfl rfl)
        | ret => exact D_after (D_pop h1 hs rfl rfl rfl)
        | throw e => exact D_after (D_pop h1 hs rfl rfl rfl)
      · exact ih
    · exact ih

/-- **Iterating over a generator leaves nothing on the stack**: the number of generator bodies nested in execution is the number of `begin()` and `++` calls that have
started and not yet come back – never the number of values that were fetched. -/
theorem C84_generator_depth (P : Prog σ V E) (ops : List (Op σ V)) : ((exec P ops).stack.length : Int) = depth (exec P ops).log := D_exec P ops

theorem born_of (c : Nat) (log : List (Ev V E)) (h : Legal Spec.next Spec.ok {} log) (hc : (Spec.after log).ph c ≠ .unborn) : ∃ o, .created c o ∈ log := by
  induction log using snocInd with
  | nil => simp [Spec.after] at hc
  | snoc l e ih =>
    have hok : Spec.ok (Spec.after l) e := h l e [] rfl
    have ih := ih h.prefix
    by_cases hu : (Spec.after l).ph c = .unborn
    · have hn : Spec.after (l ++ [e]) = (Spec.after l).next e := by simp [Spec.after]
      rw [hn] at hc
      generalize Spec.after l = S at *
      cases e with
      | created d o =>
        by_cases hd : c = d
        · subst hd; exact ⟨o, by simp⟩
        · simp [Spec.next, upd_other _ _ hd, hu] at hc
      | adv g c' seen =>
        have := hok.2
        simp only [Spec.next, upd_apply] at hc
        cases seen <;> grind
      | got g i => obtain ⟨⟨v, hk⟩, _⟩ := hok; simp only [Spec.next, hk, upd_apply] at hc; grind
      | dropped o g => cases g <;> simp only [Spec.next, Spec.ok, upd_apply] at hc hok <;> grind
      | _ =>
        simp only [Spec.next, Spec.ok] at hc hok
        (try simp only [upd_apply] at hc); grind
    · obtain ⟨o, h⟩ := ih hu
      exact ⟨o, by simp [h]⟩

/-- **No generator is entered while its body is in execution**, and all whose bodies are in execution exist. -/
theorem C84_generator_no_reentry (P : Prog σ V E) (ops : List (Op σ V)) (hu : (exec P ops).ub = none) :
    ((exec P ops).stack.map (·.1)).Nodup ∧ ∀ g c, (g, c) ∈ (exec P ops).stack →
      (∃ o, .created g o ∈ (exec P ops).log) ∧ ∀ o, .dropped o (some g) ∉ (exec P ops).log := by
  have hl := (good_exec P ops).legal
  have hi := (good_exec P ops).inv hu
  refine ⟨hi.nodup, fun g c hc => ?_⟩
  have hr := (hi.run g).2 (List.mem_map.2 ⟨(g, c), hc, rfl⟩)
  have hf := ((hi.wf g).run hr).2
  have hp : (Spec.after (exec P ops).log).ph g = .running := by rw [hi.ph]; simp [absPh, hr, hf]
  refine ⟨born_of g _ hl (by rw [hp]; simp), fun o ho => ?_⟩
  have hd := legal_destroys g _ hl
  rw [hp] at hd
  have : destroys g (exec P ops).log ≠ 0 := by
    intro h0
    revert ho
    generalize (exec P ops).log = l at h0
    intro ho
    simp [destroys] at h0
    have := h0 _ ho
    simp at this
  exact this (by simpa using hd)

/-! ### Concrete cases -/

/-- The hypotheses hold in a real run: at the end everything has come back, in the middle one body is in execution. -/
example : (exec demo demoOps).ub = none ∧ (exec demo demoOps).stack = [] ∧ (exec demo (demoOps.take 2)).stack = [(0, .begin 0)] := by decide

example : depth (exec demo demoOps).log = 0 := by rw [← C84_generator_depth]; decide

end QCoro.Gen
