import Verif.Test.Macros
/-
C72: what a test coroutine does and what it reports.
-/
namespace QCoro.Test

variable {σ : Type}

/-! ### Specification, independent of the macros and of QtTest's functions -/

/-- How a test body ends: it reaches its end, it returns before, or an exception leaves it. -/
inductive End | reached | returned | threw
deriving DecidableEq, Repr

/-- Executing the check `x` in the user's state `u` evaluates what is to be checked, once, and the description if there is one; the
user's state is then `u'`, and the check holds or not. -/
def Checks : Stmt σ → σ → σ → Bool → Prop
  | .verify e, u, u', ok => e u = (u', some ok)
  | .verify2 e d, u, u', ok => ∃ u1, e u = (u1, some ok) ∧ d u1 = (u', some ())
  | _, _, _, _ => False

/-- An expression of the statement `x` throws, and the statement does not catch it. -/
def Raises : Stmt σ → σ → σ → Prop
  | .act f, u, u' => f u = (u', none)
  | .verify e, u, u' => e u = (u', none)
  | .verify2 e d, u, u' => e u = (u', none) ∨ ∃ u1 ok, e u = (u1, some ok) ∧ d u1 = (u', none)
  | .throws _, _, _ => False
  | .fail d, u, u' => d u = (u', none)
  | .skip d, u, u' => d u = (u', none)
  | .expectFail d _ _, u, u' => d u = (u', none)

/-- A failure, while the expectation `x` is open. -/
def failing (x : Option Mode) : Report := if x = none then .fail else .xfail

/-- `Runs b x u l x' u' e`: the test body `b`, read as a sequence of statements that are executed in order, from the user's state `u` with
the expected failure `x` open, reports `l`, and ends as `e` in the user's state `u'` with `x'` still open. -/
inductive Runs : List (Stmt σ) → Option Mode → σ → List Report → Option Mode → σ → End → Prop
  | done (x u) : Runs [] x u [] x u .reached
  | raise (s b x u u') (h : Raises s u u') : Runs (s :: b) x u [] x u' .threw
  | act (f b x u u1 l x' u' e) (hf : f u = (u1, some ())) (h : Runs b x u1 l x' u' e) : Runs (.act f :: b) x u l x' u' e
  | holds (s b u u1 l x' u' e) (hs : Checks s u u1 true) (h : Runs b none u1 l x' u' e) : Runs (s :: b) none u l x' u' e
  | fails (s b u u') (hs : Checks s u u' false) : Runs (s :: b) none u [.fail] none u' .returned
  | holdsC (s b u u1 l x' u' e) (hs : Checks s u u1 true) (h : Runs b none u1 l x' u' e) : Runs (s :: b) (some .continue) u (.xpass :: l) x' u' e
  | failsC (s b u u1 l x' u' e) (hs : Checks s u u1 false) (h : Runs b none u1 l x' u' e) : Runs (s :: b) (some .continue) u (.xfail :: l) x' u' e
  | holdsA (s b u u') (hs : Checks s u u' true) : Runs (s :: b) (some .abort) u [.xpass] none u' .returned
  | failsA (s b u u') (hs : Checks s u u' false) : Runs (s :: b) (some .abort) u [.xfail] none u' .returned
  | caught (c b x u u1 l x' u' e) (hc : c u = (u1, .expected)) (h : Runs b x u1 l x' u' e) : Runs (.throws c :: b) x u l x' u' e
  | uncaught (c b x u u' r) (hc : c u = (u', r)) (hr : r ≠ .expected) : Runs (.throws c :: b) x u [failing x] none u' .returned
  | fail (d b x u u') (hd : d u = (u', some ())) : Runs (.fail d :: b) x u [failing x] none u' .returned
  | skip (d b x u u') (hd : d u = (u', some ())) : Runs (.skip d :: b) x u [.skip] none u' .returned
  | expect (d m b u u1 l x' u' e) (hd : d u = (u1, some ())) (h : Runs b (some m) u1 l x' u' e) : Runs (.expectFail d m true :: b) none u l x' u' e
  | twice (d m b m' u u') (hd : d u = (u', some ())) : Runs (.expectFail d m true :: b) (some m') u [.twice] none u' .returned
  | other (d m b x u u1 l x' u' e) (hd : d u = (u1, some ())) (h : Runs b x u1 l x' u' e) : Runs (.expectFail d m false :: b) x u l x' u' e

/-- How the model shows it. -/
def End.left : End → Option Left
  | .reached => none
  | .returned => some .returned
  | .threw => some .threw

/-! ### Proofs -/

theorem run_left (b : List (Stmt σ)) (u : σ) (q : Qt) (k : Left) : run b ⟨u, q, some k⟩ = ⟨u, q, some k⟩ := by
  induction b with
  | nil => rfl
  | cons x b ih => rw [run, List.foldl_cons]; exact ih

theorem run_cons (x : Stmt σ) (b : List (Stmt σ)) (s : State σ) : run (x :: b) s = run b (step s x) := rfl

theorem checks_step {s : Stmt σ} {u u1 ok} (h : Checks s u u1 ok) (q : Qt) :
    step ⟨u, q, none⟩ s = ⟨u1, (q.check ok).1, if (q.check ok).2 then none else some .returned⟩ := by
  cases s with
  | verify e => simp only [Checks] at h; simp [step, State.unless, h]
  | verify2 e d =>
    obtain ⟨u0, h1, h2⟩ := h
    cases ok <;> simp [step, State.unless, h1, h2]
  | _ => exact absurd h (by simp [Checks])

theorem raises_step {s : Stmt σ} {u u1} (h : Raises s u u1) (q : Qt) : step ⟨u, q, none⟩ s = ⟨u1, q, some .threw⟩ := by
  cases s with
  | verify2 e d =>
    rcases h with h | ⟨u0, ok, h1, h2⟩
    · simp [step, h]
    · cases ok <;> simp [step, h1, h2]
  | throws e => exact absurd h (by simp [Raises])
  | _ => simp only [Raises] at h; simp [step, h]

theorem sound {b : List (Stmt σ)} {x u l x' u' e} (h : Runs b x u l x' u' e) (l0 : List Report) :
    run b ⟨u, ⟨x, l0⟩, none⟩ = ⟨u', ⟨x', l0 ++ l⟩, e.left⟩ := by
  induction h generalizing l0 with
  | done x u => simp [run, End.left]
  | raise s b x u u' h => rw [run_cons, raises_step h, run_left]; simp [End.left]
  | act f b x u u1 l x' u' e hf _ ih => rw [run_cons, show step _ _ = _ from by simp only [step, hf]; rfl]; exact ih l0
  | holds s b u u1 l x' u' e hs _ ih => rw [run_cons, checks_step hs]; exact ih l0
  | fails s b u u' hs => rw [run_cons, checks_step hs]; simp [Qt.check, run_left, End.left]
  | holdsC s b u u1 l x' u' e hs _ ih => rw [run_cons, checks_step hs]; have := ih (l0 ++ [.xpass]); rw [List.append_assoc] at this; exact this
  | failsC s b u u1 l x' u' e hs _ ih => rw [run_cons, checks_step hs]; have := ih (l0 ++ [.xfail]); rw [List.append_assoc] at this; exact this
  | holdsA s b u u' hs => rw [run_cons, checks_step hs]; simp [Qt.check, run_left, End.left]
  | failsA s b u u' hs => rw [run_cons, checks_step hs]; simp [Qt.check, run_left, End.left]
  | caught c b x u u1 l x' u' e hc _ ih => rw [run_cons, show step _ _ = _ from by simp only [step, hc]; rfl]; exact ih l0
  | uncaught c b x u u' r hc hr =>
    rw [run_cons]
    cases r with
    | expected => exact absurd rfl hr
    | _ => cases x <;> simp [step, hc, Qt.fail, Qt.check, run_left, End.left, failing]
  | fail d b x u u' hd => rw [run_cons]; cases x <;> simp [step, hd, Qt.fail, Qt.check, run_left, End.left, failing]
  | skip d b x u u' hd => rw [run_cons]; simp [step, hd, Qt.skip, run_left, End.left]
  | expect d m b u u1 l x' u' e hd _ ih =>
    rw [run_cons, show step _ _ = _ from by simp only [step, hd, State.unless, Qt.expectFail]; rfl]; exact ih l0
  | twice d m b m' u u' hd => rw [run_cons]; simp [step, hd, State.unless, Qt.expectFail, run_left, End.left]
  | other d m b x u u1 l x' u' e hd _ ih =>
    rw [run_cons, show step _ _ = _ from by simp only [step, hd, State.unless, Qt.expectFail]; rfl]; exact ih l0

/-- A statement that is a check, or throws. -/
theorem check_total (s : Stmt σ) (u : σ) (hs : (∃ e, s = .verify e) ∨ ∃ e d, s = .verify2 e d) : (∃ u', Raises s u u') ∨ ∃ u1 ok, Checks s u u1 ok := by
  rcases hs with ⟨e, rfl⟩ | ⟨e, d, rfl⟩
  · obtain ⟨u1, k, he⟩ : ∃ u1 k, e u = (u1, k) := ⟨_, _, rfl⟩
    cases k with
    | none => exact .inl ⟨u1, he⟩
    | some ok => exact .inr ⟨u1, ok, he⟩
  · obtain ⟨u1, k, he⟩ : ∃ u1 k, e u = (u1, k) := ⟨_, _, rfl⟩
    cases k with
    | none => exact .inl ⟨u1, .inl he⟩
    | some ok =>
      obtain ⟨u2, k2, hd⟩ : ∃ u2 k2, d u1 = (u2, k2) := ⟨_, _, rfl⟩
      cases k2 with
      | none => exact .inl ⟨u2, .inr ⟨u1, ok, he, hd⟩⟩
      | some _ => exact .inr ⟨u2, ok, u1, he, hd⟩

theorem total (b : List (Stmt σ)) (x : Option Mode) (u : σ) : ∃ l x' u' e, Runs b x u l x' u' e := by
  induction b generalizing x u with
  | nil => exact ⟨_, _, _, _, .done x u⟩
  | cons s b ih =>
    have chk : ((∃ e, s = .verify e) ∨ ∃ e d, s = .verify2 e d) → ∃ l x' u' e, Runs (s :: b) x u l x' u' e := by
      intro hs
      rcases check_total s u hs with ⟨u', h⟩ | ⟨u1, ok, h⟩
      · exact ⟨_, _, _, _, .raise _ _ _ _ _ h⟩
      · obtain ⟨l, x', u', e, hr⟩ := ih none u1
        rcases x with _ | _ | _ <;> cases ok
        · exact ⟨_, _, _, _, .fails _ _ _ _ h⟩
        · exact ⟨_, _, _, _, .holds _ _ _ _ _ _ _ _ h hr⟩
        · exact ⟨_, _, _, _, .failsA _ _ _ _ h⟩
        · exact ⟨_, _, _, _, .holdsA _ _ _ _ h⟩
        · exact ⟨_, _, _, _, .failsC _ _ _ _ _ _ _ _ h hr⟩
        · exact ⟨_, _, _, _, .holdsC _ _ _ _ _ _ _ _ h hr⟩
    cases s with
    | verify e => exact chk (.inl ⟨_, rfl⟩)
    | verify2 e d => exact chk (.inr ⟨_, _, rfl⟩)
    | act f =>
      obtain ⟨u1, k, he⟩ : ∃ u1 k, f u = (u1, k) := ⟨_, _, rfl⟩
      cases k with
      | none => exact ⟨_, _, _, _, .raise _ _ _ _ _ he⟩
      | some _ => obtain ⟨l, x', u', e, hr⟩ := ih x u1; exact ⟨_, _, _, _, .act _ _ _ _ _ _ _ _ _ he hr⟩
    | throws c =>
      obtain ⟨u1, k, he⟩ : ∃ u1 k, c u = (u1, k) := ⟨_, _, rfl⟩
      by_cases hk : k = .expected
      · subst hk; obtain ⟨l, x', u', e, hr⟩ := ih x u1; exact ⟨_, _, _, _, .caught _ _ _ _ _ _ _ _ _ he hr⟩
      · exact ⟨_, _, _, _, .uncaught _ _ _ _ _ _ he hk⟩
    | fail d =>
      obtain ⟨u1, k, he⟩ : ∃ u1 k, d u = (u1, k) := ⟨_, _, rfl⟩
      cases k with
      | none => exact ⟨_, _, _, _, .raise _ _ _ _ _ he⟩
      | some _ => exact ⟨_, _, _, _, .fail _ _ _ _ _ he⟩
    | skip d =>
      obtain ⟨u1, k, he⟩ : ∃ u1 k, d u = (u1, k) := ⟨_, _, rfl⟩
      cases k with
      | none => exact ⟨_, _, _, _, .raise _ _ _ _ _ he⟩
      | some _ => exact ⟨_, _, _, _, .skip _ _ _ _ _ he⟩
    | expectFail d m a =>
      obtain ⟨u1, k, he⟩ : ∃ u1 k, d u = (u1, k) := ⟨_, _, rfl⟩
      cases k with
      | none => exact ⟨_, _, _, _, .raise _ _ _ _ _ he⟩
      | some _ =>
        cases a with
        | false => obtain ⟨l, x', u', e, hr⟩ := ih x u1; exact ⟨_, _, _, _, .other _ _ _ _ _ _ _ _ _ _ he hr⟩
        | true =>
          cases x with
          | none => obtain ⟨l, x', u', e, hr⟩ := ih (some m) u1; exact ⟨_, _, _, _, .expect _ _ _ _ _ _ _ _ _ he hr⟩
          | some m' => exact ⟨_, _, _, _, .twice _ _ _ _ _ _ he⟩

/-- C72. **What a test coroutine does and what it reports, for every body**: exactly what the specification `Runs` says. -/
theorem C72_runs (b : List (Stmt σ)) (u u' : σ) (l : List Report) (x' : Option Mode) (e : End) :
    Runs b none u l x' u' e ↔ run b ⟨u, {}, none⟩ = ⟨u', ⟨x', l⟩, e.left⟩ := by
  constructor
  · intro h; exact sound h []
  · intro h
    obtain ⟨l2, x2, u2, e2, h2⟩ := total b none u
    have := sound h2 []
    rw [show (⟨none, []⟩ : Qt) = {} from rfl, h] at this
    simp at this
    obtain ⟨rfl, ⟨rfl, rfl⟩, h3⟩ := this
    have he : e = e2 := by cases e <;> cases e2 <;> simp_all [End.left]
    subst he; exact h2

/-- C72. Every test body ends, in one way only. -/
theorem C72_total (b : List (Stmt σ)) (u : σ) : ∃ l x' u' e, Runs b none u l x' u' e ∧
    ∀ l2 x2 u2 e2, Runs b none u l2 x2 u2 e2 → l2 = l ∧ x2 = x' ∧ u2 = u' ∧ e2 = e := by
  obtain ⟨l, x', u', e, h⟩ := total b none u
  refine ⟨l, x', u', e, h, fun l2 x2 u2 e2 h2 => ?_⟩
  have h1 := sound h []
  rw [sound h2 []] at h1
  simp at h1
  obtain ⟨rfl, ⟨rfl, rfl⟩, h3⟩ := h1
  exact ⟨rfl, rfl, rfl, by cases e <;> cases e2 <;> simp_all [End.left]⟩

/-- The body uses no `QCORO_EXPECT_FAIL`. -/
def NoExpect (b : List (Stmt σ)) : Prop := ∀ d m a, .expectFail d m a ∉ b

/-- C72. Without expected failures: the test is reported as failed (skipped) exactly if it returned before its end, by one single report;
a test that reaches its end, or that an exception leaves, has reported nothing (the exception is the only trace of the latter). -/
theorem C72_no_expectations (b : List (Stmt σ)) (hb : NoExpect b) (u u' : σ) (l x' e) (h : Runs b none u l x' u' e) :
    x' = none ∧ (e = .returned → l = [.fail] ∨ l = [.skip]) ∧ (e ≠ .returned → l = []) := by
  have aux : ∀ b x u l x' u' e, Runs b x u l x' u' e → NoExpect (σ := σ) b → x = none →
      x' = none ∧ (e = .returned → l = [.fail] ∨ l = [.skip]) ∧ (e ≠ .returned → l = []) := by
    clear h hb
    intro b x u l x' u' e h
    induction h with
    | act f b x u u1 l x' u' e hf _ ih | caught f b x u u1 l x' u' e hf _ ih => exact fun hb hx => ih (fun d m a hm => hb d m a (.tail _ hm)) hx
    | holds s b u u1 l x' u' e hs _ ih => exact fun hb hx => ih (fun d m a hm => hb d m a (.tail _ hm)) rfl
    | expect d m b u u1 l x' u' e hd _ ih => exact fun hb => absurd (.head _) (hb d m true)
    | other d m b x u u1 l x' u' e hd _ ih => exact fun hb => absurd (.head _) (hb d m false)
    | _ => simp_all [failing]
  exact aux _ _ _ _ _ _ _ h hb rfl

/-- C72. An expected failure is used up by the next check, whatever its outcome: one that fails is an XFAIL, one that holds is an XPASS (a
failure); `Continue` goes on in both cases and `Abort` returns in both. -/
theorem C72_expect_fail (d : Comp σ Unit) (m : Mode) (s : Stmt σ) (rest : List (Stmt σ)) (u u1 u2 u' : σ) (ok : Bool) (l x' e)
    (hd : d u = (u1, some ())) (hs : Checks s u1 u2 ok) :
    Runs (.expectFail d m true :: s :: rest) none u l x' u' e ↔
      ∃ l', l = (if ok then .xpass else .xfail) :: l' ∧
        (m = .continue ∧ Runs rest none u2 l' x' u' e ∨ m = .abort ∧ l' = [] ∧ x' = none ∧ u' = u2 ∧ e = .returned) := by
  obtain ⟨l1, x1, u3, e1, hr⟩ := total rest none u2
  have hdet : ∀ {c x u l x' u' e l2 x2 u2 e2}, Runs c x u l x' u' e → Runs c x u l2 x2 u2 e2 → l2 = l ∧ x2 = x' ∧ (u2 : σ) = u' ∧ e2 = e := by
    intro c x u l x' u' e l2 x2 u2 e2 h h2
    have h1 := sound h []
    rw [sound h2 []] at h1
    simp at h1
    obtain ⟨rfl, ⟨rfl, rfl⟩, h3⟩ := h1
    exact ⟨rfl, rfl, rfl, by cases e <;> cases e2 <;> simp_all [End.left]⟩
  have key : ∃ l', Runs (.expectFail d m true :: s :: rest) none u ((if ok then Report.xpass else .xfail) :: l')
      (if m = .continue then x1 else none) (if m = .continue then u3 else u2) (if m = .continue then e1 else .returned) ∧
      l' = if m = .continue then l1 else [] := by
    refine ⟨_, .expect _ _ _ _ _ _ _ _ _ hd ?_, rfl⟩
    cases m <;> cases ok <;> simp
    · exact .failsA _ _ _ _ hs
    · exact .holdsA _ _ _ _ hs
    · exact .failsC _ _ _ _ _ _ _ _ hs hr
    · exact .holdsC _ _ _ _ _ _ _ _ hs hr
  obtain ⟨l', hk, hl'⟩ := key
  constructor
  · intro h
    obtain ⟨rfl, rfl, rfl, rfl⟩ := hdet hk h
    refine ⟨l', rfl, ?_⟩
    cases m with
    | abort => right; simp_all
    | «continue» => left; simp at hl' ⊢; rw [hl']; exact hr
  · rintro ⟨l2, rfl, ⟨rfl, h⟩ | ⟨rfl, rfl, rfl, rfl, rfl⟩⟩
    · obtain ⟨rfl, rfl, rfl, rfl⟩ := hdet hr h
      simp at hl' hk; rw [← hl']; exact hk
    · simp at hl' hk; rw [hl'] at hk; exact hk

/-- C72. Found: a `QCORO_VERIFY_THROWS_EXCEPTION` that holds does not use the expected failure up: it stays open for a later check. -/
theorem C72_throws_keeps_expectation (d : Comp σ Unit) (m : Mode) (c : σ → σ × Raise) (u u1 u2 : σ) (hd : d u = (u1, some ())) (hc : c u1 = (u2, .expected)) :
    Runs [.expectFail d m true, .throws c] none u [] (some m) u2 .reached :=
  .expect _ _ _ _ _ _ _ _ _ hd (.caught _ _ _ _ _ _ _ _ _ hc (.done _ _))

/-- A test of three statements, the user's state counts what was executed. Not code of /repo. -/
def demo : List (Stmt Nat) := [.act fun u => (u + 1, some ()), .verify fun u => (u + 10, some (u == 0)), .act fun u => (u + 100, some ())]

/-- A test with an expected failure. Not code of /repo. -/
def demo2 : List (Stmt Nat) := .expectFail (fun u => (u, some ())) .continue true :: .verify (fun u => (u + 10, some (u == 5))) :: demo

example : NoExpect demo := by simp [NoExpect, demo]
example : Runs demo none 0 [.fail] none 11 .returned := .act _ _ _ _ _ _ _ _ _ rfl (.fails _ _ _ _ rfl)
example : Runs demo2 none 0 [.xfail, .fail] none 21 .returned :=
  .expect _ _ _ _ _ _ _ _ _ rfl (.failsC _ _ _ 10 _ _ _ _ rfl (.act _ _ _ _ _ _ _ _ _ rfl (.fails _ _ _ _ rfl)))
example : (run demo2 ⟨0, {}, none⟩).u = 21 := rfl

end QCoro.Test
