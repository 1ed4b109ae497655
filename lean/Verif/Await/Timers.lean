import Verif.Util.Basic
/-
Several coroutines awaiting one `QTimer` (property C78).

Every `co_await timer` has its own direct connection to `QTimer::timeout` (`qcoro/core/qcorotimer.cpp:23-32`), so the coroutines are
resumed inside the emission of the signal, one after the other, and each of them can do anything to the timer before the next one
is reached: stop it, start it again, destroy it, await it again, or run an event loop in which it times out again.
-/
set_option linter.unusedSimpArgs false
namespace QCoro.Timers
open QCoro

/-- What happens, as the application sees it. Observations, no counterpart in /repo. -/
inductive Ev
  | passed (k : Nat)            -- the `co_await timer` number `k` did not suspend
  | waits (k : Nat)             -- … suspended its coroutine
  | emission (e : Nat)          -- the timer times out, for the `e`-th time
  | resumed (k e : Nat)         -- the coroutine of `co_await` number `k` is continued, by the `e`-th timeout
  | done (e : Nat)              -- the emission of the `e`-th timeout is over
  | destroyed
deriving DecidableEq, Repr

/-- An emission in progress: the connections that existed when it began and were not looked at yet.
Models Qt (`QObject` signal emission), not code of /repo. -/
structure Emission where
  e : Nat
  todo : List Nat
deriving DecidableEq, Repr

/-- The timer, its connections and the emissions in progress, innermost first.
`conns`: the connections made at `qcoro/core/qcorotimer.cpp:25`, in the order in which they were made. -/
structure State where
  alive : Bool := true
  active : Bool := false          -- `isActive()`
  n : Nat := 0                    -- number of `co_await`s so far
  m : Nat := 0                    -- number of timeouts so far
  conns : List Nat := []
  stack : List Emission := []
  log : List Ev := []
deriving DecidableEq, Repr

/-- What can happen next: choices of the application's code, of the event loops it runs and of the timer. No counterpart in /repo. -/
inductive Op
  | await                         -- a coroutine executes `co_await timer`
  | setActive (b : Bool)          -- somebody starts or stops the timer
  | timeout (single : Bool)       -- the timer is due and an event loop handles it (`single`: it is a single-shot timer)
  | next                          -- the coroutine resumed last has given control back: the emission goes on
  | destroy                       -- somebody destroys the timer
deriving DecidableEq, Repr

/-- `co_await timer` (`qcoro/core/qcorotimer.cpp:19-32`): `await_ready` (`:19-21`), then `await_suspend` (`:23-32`), which connects.
Simplification: nothing happens between the two (the timer lives in this thread), so the branch of `:29-31` is not reached. -/
def State.await (s : State) : State :=
  if !s.alive || !s.active then { s with n := s.n + 1, log := s.log ++ [.passed s.n] }
  else { s with n := s.n + 1, conns := s.conns ++ [s.n], log := s.log ++ [.waits s.n] }

/-- The next connection of an emission. A connection that is gone is skipped; the emission ends early if the sender is destroyed
(Qt, `QMetaObject::activate`). The slot (`qcoro/core/qcorotimer.cpp:25-28`) disconnects, then resumes the coroutine. -/
def State.next (s : State) : State :=
  match s.stack with
  | [] => s
  | f :: st =>
    if !s.alive then { s with stack := st, log := s.log ++ [.done f.e] }
    else match f.todo with
      | [] => { s with stack := st, log := s.log ++ [.done f.e] }
      | k :: l =>
        if k ∈ s.conns then
          { s with stack := { f with todo := l } :: st, conns := s.conns.filter (fun j => j != k), log := s.log ++ [.resumed k f.e] }
        else { s with stack := { f with todo := l } :: st }

/-- One step. Around the awaiter of `qcoro/core/qcorotimer.cpp:13-34`. -/
def step (s : State) : Op → State
  | .await => s.await
  | .setActive b => if s.alive then { s with active := b } else s
  | .timeout single =>
    if s.alive && s.active then
      { s with active := !single, m := s.m + 1, stack := { e := s.m, todo := s.conns } :: s.stack, log := s.log ++ [.emission s.m] }
    else s
  | .next => s.next
  | .destroy => if s.alive then { s with alive := false, conns := [], log := s.log ++ [.destroyed] } else s

/-- Everything that happens after the timer was made. Bookkeeping of the model, no counterpart in /repo. -/
def exec (ops : List Op) : State := ops.foldl step {}

theorem exec_snoc (ops : List Op) (op : Op) : exec (ops ++ [op]) = step (exec ops) op := by simp [exec]

/-! ### Specification: read off the log -/

/-- The `co_await`s that suspended, in order. -/
def suspended : List Ev → List Nat
  | [] => []
  | .waits k :: l => k :: suspended l
  | _ :: l => suspended l
/-- The `co_await`s that were continued after having suspended, in order. -/
def continued : List Ev → List Nat
  | [] => []
  | .resumed k _ :: l => k :: continued l
  | _ :: l => continued l

theorem suspended_append (a b : List Ev) : suspended (a ++ b) = suspended a ++ suspended b := by
  induction a with
  | nil => rfl
  | cons x a ih => cases x <;> simp [suspended, ih]
theorem continued_append (a b : List Ev) : continued (a ++ b) = continued a ++ continued b := by
  induction a with
  | nil => rfl
  | cons x a ih => cases x <;> simp [continued, ih]

/-- Is the timer there (nobody destroyed it)? -/
def there (ops : List Op) : Bool := ops.all (fun o => decide (o ≠ .destroy))
/-- Is the timer running after `ops` (latest first)? A single-shot timer stops before it emits. -/
def runningR : List Op → Bool
  | [] => false
  | .setActive b :: _ => b
  | .timeout single :: l => runningR l && !single
  | _ :: l => runningR l
/-- Is the timer running after `ops`? -/
def running (ops : List Op) : Bool := runningR ops.reverse

/-! ### Invariant -/

/-- What is possible after `p`. -/
def ok (p : List Ev) : Ev → Prop
  | .emission e => .emission e ∉ p ∧ .destroyed ∉ p
  | .resumed k e => .destroyed ∉ p ∧ ∃ p1 p2, p = p1 ++ .emission e :: p2 ∧ k ∈ suspended p1 ∧ .done e ∉ p2
  | .done e => .done e ∉ p ∧ ∃ p1 p2, p = p1 ++ .emission e :: p2 ∧ (.destroyed ∉ p → ∀ k ∈ suspended p1, k ∈ continued p)
  | .waits k => k ∉ suspended p ∧ .destroyed ∉ p
  | .destroyed => .destroyed ∉ p
  | .passed _ => True

/-- The coroutines waiting are those that suspended and were not continued; an emission in progress still has to look at those of
them that suspended before it began. -/
structure Inv (s : State) : Prop where
  fifo : s.alive = true → suspended s.log = continued s.log ++ s.conns
  pre : ∃ l, suspended s.log = continued s.log ++ l
  lt : ∀ k ∈ suspended s.log, k < s.n
  inc : (suspended s.log).Pairwise (· < ·)
  gone : s.alive = false → .destroyed ∈ s.log ∧ s.conns = []
  live : s.alive = true → .destroyed ∉ s.log
  num : ∀ e, .emission e ∈ s.log → e < s.m
  dn : ∀ e, .done e ∈ s.log → e < s.m ∧ ∀ f ∈ s.stack, f.e ≠ e
  uniq : s.stack.Pairwise (fun f g => f.e ≠ g.e)
  todo : ∀ f ∈ s.stack, f.todo.Pairwise (· < ·) ∧ ∃ p1 p2, s.log = p1 ++ .emission f.e :: p2 ∧ (∀ k ∈ f.todo, k ∈ suspended p1) ∧
    (s.alive = true → ∀ k ∈ suspended p1, k ∈ continued s.log ∨ k ∈ f.todo)
  legal : ∀ p x q, s.log = p ++ x :: q → ok p x

theorem snoc_split {α : Type} {l : List α} {y x : α} {p q : List α} (h : l ++ [y] = p ++ x :: q) :
    (p = l ∧ x = y ∧ q = []) ∨ ∃ q', q = q' ++ [y] ∧ l = p ++ x :: q' := by
  rcases List.eq_nil_or_concat q with rfl | ⟨q', z, rfl⟩
  · have := List.append_inj' (s₁ := l) (t₁ := [y]) (s₂ := p) (t₂ := [x]) h rfl
    simp at this; exact Or.inl ⟨this.1.symm, this.2.symm, rfl⟩
  · have h' : l ++ [y] = (p ++ x :: q') ++ [z] := by rw [h]; simp
    have := List.append_inj' (s₁ := l) (t₁ := [y]) (s₂ := p ++ x :: q') (t₂ := [z]) h' rfl
    simp at this; exact Or.inr ⟨q', by rw [this.2]; simp, this.1⟩

theorem legal_snoc {l : List Ev} {y : Ev} (h : ∀ p x q, l = p ++ x :: q → ok p x) (hy : ok l y) :
    ∀ p x q, l ++ [y] = p ++ x :: q → ok p x := by
  intro p x q e
  rcases snoc_split e with ⟨rfl, rfl, rfl⟩ | ⟨q', rfl, e'⟩
  · exact hy
  · exact h _ _ _ e'

theorem inv_init : Inv {} := by
  constructor <;> simp [suspended, continued]

theorem inv_await {s : State} (h : Inv s) : Inv s.await := by
  unfold State.await
  by_cases hc : (!s.alive || !s.active) = true
  · rw [if_pos hc]
    constructor <;> simp only [suspended_append, continued_append, suspended, continued, List.append_nil]
    · exact h.fifo
    · exact h.pre
    · intro k hk; have := h.lt k hk; omega
    · exact h.inc
    · intro ha; have := h.gone ha; simp [this.1, this.2]
    · intro ha; simpa using h.live ha
    · intro e he; simp at he; exact h.num e he
    · intro e he; simp at he; exact h.dn e he
    · exact h.uniq
    · intro f hf
      obtain ⟨h1, p1, p2, e, h2, h3⟩ := h.todo f hf
      exact ⟨h1, p1, p2 ++ [.passed s.n], by rw [e]; simp, h2, h3⟩
    · exact legal_snoc h.legal trivial
  · rw [if_neg hc]
    have ha : s.alive = true := by simp at hc; exact hc.1
    have hnew : s.n ∉ suspended s.log := fun hm => by have := h.lt _ hm; omega
    constructor <;> simp only [suspended_append, continued_append, suspended, continued, List.append_nil]
    · intro _; rw [h.fifo ha]; simp
    · exact ⟨s.conns ++ [s.n], by rw [h.fifo ha]; simp⟩
    · intro k hk; simp at hk; rcases hk with hk | rfl
      · have := h.lt k hk; omega
      · omega
    · refine List.pairwise_append.2 ⟨h.inc, by simp, ?_⟩
      intro a ha' b hb; simp at hb; subst hb; exact h.lt a ha'
    · intro ha'; rw [ha] at ha'; cases ha'
    · intro _; simpa using h.live ha
    · intro e he; simp at he; exact h.num e he
    · intro e he; simp at he; exact h.dn e he
    · exact h.uniq
    · intro f hf
      obtain ⟨h1, p1, p2, e, h2, h3⟩ := h.todo f hf
      exact ⟨h1, p1, p2 ++ [.waits s.n], by rw [e]; simp, h2, h3⟩
    · exact legal_snoc h.legal ⟨hnew, h.live ha⟩

theorem inv_timeout {s : State} (h : Inv s) (single : Bool) : Inv (step s (.timeout single)) := by
  simp only [step]
  by_cases hc : (s.alive && s.active) = true
  · rw [if_pos hc]
    have ha : s.alive = true := by simp at hc; exact hc.1
    have hnew : Ev.emission s.m ∉ s.log := fun hm => by have := h.num _ hm; omega
    have hlt : ∀ f ∈ s.stack, f.e < s.m := by
      intro f hf
      obtain ⟨_, p1, p2, e, _⟩ := h.todo f hf
      exact h.num _ (by rw [e]; simp)
    constructor <;> simp only [suspended_append, continued_append, suspended, continued, List.append_nil]
    · exact h.fifo
    · exact h.pre
    · exact h.lt
    · exact h.inc
    · intro ha'; rw [ha] at ha'; cases ha'
    · intro _; simpa using h.live ha
    · intro e he; simp at he; rcases he with he | rfl
      · have := h.num e he; omega
      · omega
    · intro e he; simp at he
      have := h.dn e he
      refine ⟨by omega, ?_⟩
      intro f hf; simp at hf; rcases hf with rfl | hf
      · simp; omega
      · exact this.2 f hf
    · refine List.pairwise_cons.2 ⟨?_, h.uniq⟩
      intro f hf; have := hlt f hf; simp; omega
    · intro f hf; simp at hf; rcases hf with rfl | hf
      · refine ⟨?_, s.log, [], rfl, ?_, ?_⟩
        · have := h.inc; rw [h.fifo ha] at this; exact (List.pairwise_append.1 this).2.1
        · intro k hk; rw [h.fifo ha]; simp [hk]
        · intro _ k hk; rw [h.fifo ha] at hk; simpa using hk
      · obtain ⟨h1, p1, p2, e, h2, h3⟩ := h.todo f hf
        exact ⟨h1, p1, p2 ++ [.emission s.m], by rw [e]; simp, h2, h3⟩
    · exact legal_snoc h.legal ⟨hnew, h.live ha⟩
  · rw [if_neg hc]; exact h

theorem inv_destroy {s : State} (h : Inv s) : Inv (step s .destroy) := by
  simp only [step]
  by_cases ha : s.alive = true
  · rw [if_pos ha]
    constructor <;> simp only [suspended_append, continued_append, suspended, continued, List.append_nil]
    · intro h'; cases h'
    · exact h.pre
    · exact h.lt
    · exact h.inc
    · intro _; simp
    · intro h'; cases h'
    · intro e he; simp at he; exact h.num e he
    · intro e he; simp at he; exact h.dn e he
    · exact h.uniq
    · intro f hf
      obtain ⟨h1, p1, p2, e, h2, h3⟩ := h.todo f hf
      exact ⟨h1, p1, p2 ++ [.destroyed], by rw [e]; simp, h2, by intro h'; cases h'⟩
    · exact legal_snoc h.legal (h.live ha)
  · rw [if_neg ha]; exact h

/-- An emission ends. -/
theorem inv_pop {s : State} (h : Inv s) {f : Emission} {st : List Emission} (hs : s.stack = f :: st)
    (hd : s.alive = true → f.todo = []) : Inv { s with stack := st, log := s.log ++ [.done f.e] } := by
  have hmem : f ∈ s.stack := by rw [hs]; simp
  have hu := h.uniq; rw [hs] at hu
  have hu' := List.pairwise_cons.1 hu
  constructor <;> simp only [suspended_append, continued_append, suspended, continued, List.append_nil]
  · exact h.fifo
  · exact h.pre
  · exact h.lt
  · exact h.inc
  · intro ha; have := h.gone ha; simp [this.1, this.2]
  · intro ha; simpa using h.live ha
  · intro e he; simp at he; exact h.num e he
  · intro e he; simp at he; rcases he with he | rfl
    · have := h.dn e he
      exact ⟨this.1, fun g hg => this.2 g (by rw [hs]; simp [hg])⟩
    · refine ⟨?_, fun g hg he => hu'.1 g hg he.symm⟩
      obtain ⟨_, p1, p2, e, _⟩ := h.todo f hmem
      exact h.num _ (by rw [e]; simp)
  · exact hu'.2
  · intro g hg
    obtain ⟨h1, p1, p2, e, h2, h3⟩ := h.todo g (by rw [hs]; simp [hg])
    exact ⟨h1, p1, p2 ++ [.done f.e], by rw [e]; simp, h2, h3⟩
  · refine legal_snoc h.legal ⟨fun hm => (h.dn _ hm).2 f hmem rfl, ?_⟩
    obtain ⟨h1, p1, p2, e, h2, h3⟩ := h.todo f hmem
    refine ⟨p1, p2, e, fun hnd k hk => ?_⟩
    have ha : s.alive = true := by
      rcases Bool.eq_false_or_eq_true s.alive with h' | h'
      · exact h'
      · exact absurd (h.gone h').1 hnd
    rcases h3 ha k hk with h' | h'
    · exact h'
    · rw [hd ha] at h'; cases h'

theorem inv_next {s : State} (h : Inv s) : Inv s.next := by
  unfold State.next
  obtain ⟨stk, hs⟩ : ∃ stk, s.stack = stk := ⟨_, rfl⟩
  rw [hs]
  cases stk with
  | nil => exact h
  | cons f st =>
    dsimp only
    by_cases ha : s.alive = true
    · rw [if_neg (by simp [ha])]
      obtain ⟨td, ht⟩ : ∃ td, f.todo = td := ⟨_, rfl⟩
      rw [ht]
      cases td with
      | nil => exact inv_pop h hs (fun _ => ht)
      | cons k l =>
        dsimp only
        have hmem : f ∈ s.stack := by rw [hs]; simp
        obtain ⟨h1, p1, p2, e, h2, h3⟩ := h.todo f hmem
        have hu := h.uniq; rw [hs] at hu
        have hu' := List.pairwise_cons.1 hu
        rw [ht] at h1 h2
        have h3 := h3 ha; rw [ht] at h3
        have h1' := List.pairwise_cons.1 h1
        have hfifo := h.fifo ha
        by_cases hk : k ∈ s.conns
        · rw [if_pos hk]
          -- `k` is the oldest of the waiting ones
          have hhead : ∃ c, s.conns = k :: c := by
            obtain ⟨cs, hcs⟩ : ∃ cs, s.conns = cs := ⟨_, rfl⟩
            cases cs with
            | nil => rw [hcs] at hk; cases hk
            | cons j c =>
              refine ⟨c, ?_⟩
              have hinc := h.inc; rw [hfifo, hcs] at hinc
              have hp := List.pairwise_append.1 hinc
              have hjc := List.pairwise_cons.1 hp.2.1
              have hjn : j ∉ continued s.log := fun hm => by have := hp.2.2 j hm j (by simp); omega
              rw [hcs] at hk
              simp at hk
              rcases hk with rfl | hk
              · exact hcs
              · have hjk : j < k := hjc.1 k hk
                have hj1 : j ∈ suspended p1 := by
                  have hjs : j ∈ suspended s.log := by rw [hfifo, hcs]; simp
                  rw [e, suspended_append] at hjs
                  rcases List.mem_append.1 hjs with h' | h'
                  · exact h'
                  · have hi := h.inc; rw [e, suspended_append] at hi
                    have := (List.pairwise_append.1 hi).2.2 k (h2 k (by simp)) j h'; omega
                rcases h3 j hj1 with h' | h'
                · exact absurd h' hjn
                · simp at h'; rcases h' with rfl | h'
                  · omega
                  · have := h1'.1 j h'; omega
          obtain ⟨c, hc⟩ := hhead
          have hinc := h.inc; rw [hfifo, hc] at hinc
          have hp := List.pairwise_append.1 hinc
          have hkc := List.pairwise_cons.1 hp.2.1
          have hfil : s.conns.filter (fun j => j != k) = c := by
            rw [hc]; simp
            intro a hac; have := hkc.1 a hac; omega
          constructor <;> simp only [suspended_append, continued_append, suspended, continued, List.append_nil, hfil]
          · intro _; rw [hfifo, hc]; simp
          · exact ⟨c, by rw [hfifo, hc]; simp⟩
          · exact h.lt
          · exact h.inc
          · intro ha'; rw [ha] at ha'; cases ha'
          · intro _; simpa using h.live ha
          · intro e he; simp at he; exact h.num e he
          · intro e he; simp at he
            have := h.dn e he
            refine ⟨this.1, ?_⟩
            intro g hg; simp at hg; rcases hg with rfl | hg
            · exact this.2 f hmem
            · exact this.2 g (by rw [hs]; simp [hg])
          · exact List.pairwise_cons.2 ⟨hu'.1, hu'.2⟩
          · intro g hg; simp at hg; rcases hg with rfl | hg
            · refine ⟨h1'.2, p1, p2 ++ [.resumed k f.e], by rw [e]; simp, fun j hj => h2 j (by simp [hj]), ?_⟩
              intro _ j hj
              rcases h3 j hj with h' | h'
              · left; simp [h']
              · simp at h'; rcases h' with rfl | h'
                · left; simp
                · right; exact h'
            · obtain ⟨g1, q1, q2, e', g2, g3⟩ := h.todo g (by rw [hs]; simp [hg])
              refine ⟨g1, q1, q2 ++ [.resumed k f.e], by rw [e']; simp, g2, ?_⟩
              intro _ j hj
              rcases g3 ha j hj with h' | h'
              · left; simp [h']
              · right; exact h'
          · refine legal_snoc h.legal ⟨h.live ha, p1, p2, e, h2 k (by simp), ?_⟩
            intro hm
            exact (h.dn f.e (by rw [e]; simp [hm])).2 f hmem rfl
        · rw [if_neg hk]
          constructor <;> dsimp only
          · exact h.fifo
          · exact h.pre
          · exact h.lt
          · exact h.inc
          · exact h.gone
          · exact h.live
          · exact h.num
          · intro e he
            have := h.dn e he
            refine ⟨this.1, ?_⟩
            intro g hg; simp at hg; rcases hg with rfl | hg
            · exact this.2 f hmem
            · exact this.2 g (by rw [hs]; simp [hg])
          · exact List.pairwise_cons.2 ⟨hu'.1, hu'.2⟩
          · intro g hg; simp at hg; rcases hg with rfl | hg
            · refine ⟨h1'.2, p1, p2, e, fun j hj => h2 j (by simp [hj]), ?_⟩
              intro _ j hj
              rcases h3 j hj with h' | h'
              · left; exact h'
              · simp at h'; rcases h' with rfl | h'
                · left
                  have : j ∈ suspended s.log := by rw [e, suspended_append]; simp [hj]
                  rw [hfifo] at this
                  rcases List.mem_append.1 this with h' | h'
                  · exact h'
                  · exact absurd h' hk
                · right; exact h'
            · exact h.todo g (by rw [hs]; simp [hg])
          · exact h.legal
    · rw [if_pos (by simp [ha])]
      exact inv_pop h hs (fun h' => absurd h' ha)

theorem inv_step {s : State} (h : Inv s) (op : Op) : Inv (step s op) := by
  cases op with
  | await => exact inv_await h
  | setActive b =>
    simp only [step]
    by_cases ha : s.alive = true
    · rw [if_pos ha]; exact ⟨h.fifo, h.pre, h.lt, h.inc, h.gone, h.live, h.num, h.dn, h.uniq, h.todo, h.legal⟩
    · rw [if_neg ha]; exact h
  | timeout single => exact inv_timeout h single
  | next => exact inv_next h
  | destroy => exact inv_destroy h

theorem inv_exec (ops : List Op) : Inv (exec ops) := by
  induction ops using snocInd with
  | nil => exact inv_init
  | snoc l op ih => rw [exec_snoc]; exact inv_step ih op

/-! ### C78 -/

/-- C78. Whatever the coroutines do to the timer, stop or restart it, await it again, run event loops in which it times out again:
they are continued in the order in which they began to wait, each at most once. -/
theorem C78_order (ops : List Op) :
    (∃ l, suspended (exec ops).log = continued (exec ops).log ++ l) ∧ (suspended (exec ops).log).Nodup := by
  have h := inv_exec ops
  exact ⟨h.pre, h.inc.imp (fun h => Nat.ne_of_lt h)⟩

/-- C78. A coroutine is continued only inside the emission of a timeout that began after the coroutine had begun to wait and is
not over yet, and only while the timer exists. -/
theorem C78_by_a_later_timeout {ops : List Op} {pre post k e} (hl : (exec ops).log = pre ++ .resumed k e :: post) :
    .destroyed ∉ pre ∧ ∃ p1 p2, pre = p1 ++ .emission e :: p2 ∧ k ∈ suspended p1 ∧ .done e ∉ p2 :=
  (inv_exec ops).legal _ _ _ hl

theorem split_emission {p1 p2 q1 q2 : List Ev} {e : Nat} (h : p1 ++ .emission e :: p2 = q1 ++ .emission e :: q2)
    (hp : .emission e ∉ p1) (hq : .emission e ∉ q1) : p1 = q1 ∧ p2 = q2 := by
  induction p1 generalizing q1 with
  | nil => cases q1 with
    | nil => simp at h; exact ⟨rfl, h⟩
    | cons y q1 => simp at h; exact absurd (by simp [h.1]) hq
  | cons x p1 ih => cases q1 with
    | nil => simp at h; exact absurd (by simp [h.1]) hp
    | cons y q1 =>
      simp at h
      have := ih h.2 (fun hm => hp (by simp [hm])) (fun hm => hq (by simp [hm]))
      exact ⟨by rw [h.1, this.1], this.2⟩

/-- C78. One timeout continues everybody: when the emission of a timeout is over, every coroutine that waited when it began has
been continued, unless one of them destroyed the timer. -/
theorem C78_one_timeout_continues_all {ops : List Op} {pre mid post e}
    (hl : (exec ops).log = pre ++ .emission e :: mid ++ .done e :: post) (hd : .destroyed ∉ pre ++ .emission e :: mid) :
    ∀ k ∈ suspended pre, k ∈ continued (pre ++ .emission e :: mid) := by
  obtain ⟨_, p1, p2, hp, hall⟩ := (inv_exec ops).legal _ _ _ hl
  have h0 := ((inv_exec ops).legal pre (.emission e) (mid ++ .done e :: post) (by rw [hl]; simp)).1
  have h1 : .emission e ∉ p1 := by
    refine ((inv_exec ops).legal p1 (.emission e) (p2 ++ .done e :: post) ?_).1
    rw [hl, hp]; simp
  have := split_emission hp h0 h1
  rw [← this.1] at hall
  exact hall hd

/-- C78. … and nobody else, if the timer does not time out again meanwhile: who begins to wait during the emission, even a
coroutine just continued by it, waits for the next timeout. -/
theorem C78_exactly_those {ops : List Op} {pre mid post e}
    (hl : (exec ops).log = pre ++ .emission e :: mid ++ .done e :: post) (hd : .destroyed ∉ pre ++ .emission e :: mid)
    (hn : ∀ e', .emission e' ∉ mid) :
    continued (pre ++ .emission e :: mid) = suspended pre := by
  have hinv := inv_exec ops
  have hall := C78_one_timeout_continues_all hl hd
  -- everything continued so far waited before the emission
  have hsub : ∀ k ∈ continued (pre ++ .emission e :: mid), k ∈ suspended pre := by
    intro k hk
    have : ∀ (a : List Ev), (∃ b, pre ++ .emission e :: mid = a ++ b) → ∀ k ∈ continued a, k ∈ suspended pre := by
      intro a
      induction a using snocInd with
      | nil => intro _ k hk; simp [continued] at hk
      | snoc a x ih =>
        rintro ⟨b, hb⟩ k hk
        rw [continued_append] at hk
        rcases List.mem_append.1 hk with hk | hk
        · exact ih ⟨x :: b, by rw [hb]; simp⟩ k hk
        · cases x with
          | resumed j e' =>
            simp [continued] at hk; subst hk
            obtain ⟨_, p1, p2, hp, hk1, hdn⟩ := hinv.legal a (.resumed k e') (b ++ .done e :: post) (by rw [hl, hb]; simp)
            -- the emission is `e`, or an earlier one
            have hb' : pre ++ .emission e :: mid = p1 ++ .emission e' :: (p2 ++ .resumed k e' :: b) := by rw [hb, hp]; simp
            rcases List.append_eq_append_iff.1 hb' with ⟨c, hc1, hc2⟩ | ⟨c, hc1, hc2⟩
            · cases c with
              | nil => simp at hc1; rw [hc1] at hk1; exact hk1
              | cons y c =>
                simp at hc2
                exact absurd (by rw [hc2.2]; simp) (hn e')
            · rw [hc1, suspended_append]; simp [hk1]
          | _ => simp [continued] at hk
    exact this _ ⟨[], by simp⟩ k hk
  -- both are prefixes of what suspended
  obtain ⟨l, hl'⟩ := hinv.pre
  have hpre : ∃ l', suspended (pre ++ .emission e :: mid) = continued (pre ++ .emission e :: mid) ++ l' := by
    -- continued coroutines are a prefix at every moment
    have h1 : suspended (exec ops).log = suspended (pre ++ .emission e :: mid) ++ suspended (.done e :: post) := by
      rw [hl, suspended_append]
    have h2 : continued (exec ops).log = continued (pre ++ .emission e :: mid) ++ continued (.done e :: post) := by
      rw [hl, continued_append]
    have hsub2 : ∀ k ∈ continued (pre ++ .emission e :: mid), k ∈ suspended (pre ++ .emission e :: mid) := by
      intro k hk; rw [suspended_append]; simp [hsub k hk]
    have hinc := hinv.inc
    rw [h1] at hl'
    rw [h2, List.append_assoc] at hl'
    rcases List.append_eq_append_iff.1 hl' with ⟨c, hc1, hc2⟩ | ⟨c, hc1, hc2⟩
    · cases c with
      | nil => exact ⟨[], by rw [hc1]; simp⟩
      | cons y c =>
        exfalso
        have hy : y ∈ suspended (pre ++ .emission e :: mid) := hsub2 y (by rw [hc1]; simp)
        rw [h1, hc2] at hinc
        have := (List.pairwise_append.1 hinc).2.2 y hy y (by simp)
        omega
    · exact ⟨c, hc1⟩
  obtain ⟨l', hl''⟩ := hpre
  rw [suspended_append] at hl''
  have hinc := hinv.inc
  rw [hl, List.append_assoc, suspended_append] at hinc
  have hincp := (List.pairwise_append.1 hinc)
  rcases List.append_eq_append_iff.1 hl'' with ⟨c, hc1, hc2⟩ | ⟨c, hc1, hc2⟩
  · cases c with
    | nil => rw [hc1]; simp
    | cons y c =>
      exfalso
      have hy : y ∈ suspended pre := hsub y (by rw [hc1]; simp)
      have hy2 : y ∈ suspended (.emission e :: mid) := by rw [hc2]; simp
      have := hincp.2.2 y hy y (by rw [List.cons_append, ← List.cons_append, suspended_append]; simp [hy2]); omega
  · cases c with
    | nil => rw [hc1]; simp
    | cons y c =>
      exfalso
      have hy := hall y (by rw [hc1]; simp)
      rw [hc1] at hincp
      have := (List.pairwise_append.1 hincp.1).2.2 y hy y (by simp); omega

/-- C78. Found: who still waits when the timer is destroyed – by the application or by one of the coroutines just continued – is
never continued. -/
theorem C78_destroyed_strands {ops : List Op} {pre post} (hl : (exec ops).log = pre ++ .destroyed :: post) : continued post = [] := by
  have : ∀ (a b : List Ev), post = a ++ b → continued a = [] := by
    intro a
    induction a using snocInd with
    | nil => intro _ _; rfl
    | snoc a x ih =>
      intro b hb
      rw [continued_append, ih (x :: b) (by rw [hb]; simp)]
      cases x with
      | resumed k e =>
        have := (inv_exec ops).legal (pre ++ .destroyed :: a) (.resumed k e) b (by rw [hl, hb]; simp)
        exact absurd (by simp) this.1
      | _ => rfl
  exact this post [] (by simp)

theorem alive_exec (ops : List Op) : (exec ops).alive = there ops := by
  induction ops using snocInd with
  | nil => rfl
  | snoc l op ih =>
    rw [exec_snoc]
    have hs : there (l ++ [op]) = (there l && decide (op ≠ .destroy)) := by simp [there]
    rw [hs, ← ih]
    generalize exec l = s
    cases op with
    | await => simp only [step, State.await]; split <;> simp
    | setActive b => simp only [step]; split <;> simp
    | timeout b => simp only [step]; split <;> simp
    | next => simp only [step, State.next]; split <;> (try split) <;> (try split) <;> (try split) <;> simp_all
    | destroy => simp only [step]; split <;> simp_all

theorem active_exec (ops : List Op) (h : there ops = true) : (exec ops).active = running ops := by
  induction ops using snocInd with
  | nil => rfl
  | snoc l op ih =>
    have hl : there l = true := by simp [there] at h ⊢; exact h.1
    have ha := alive_exec l
    rw [hl] at ha
    rw [exec_snoc]
    have ih := ih hl
    have hr : running (l ++ [op]) = match op with | .setActive b => b | .timeout single => running l && !single | _ => running l := by
      cases op <;> simp [running, runningR]
    rw [hr, ← ih]
    generalize exec l = s at *
    cases op with
    | await => simp only [step, State.await]; split <;> rfl
    | setActive b => simp only [step]; rw [if_pos ha]
    | timeout b =>
      simp only [step]
      rcases Bool.eq_false_or_eq_true s.active with h' | h'
      · rw [if_pos (by simp [ha, h'])]; simp [h']
      · rw [if_neg (by simp [h'])]; simp [h']
    | next => simp only [step, State.next]; split <;> (try split) <;> (try split) <;> (try split) <;> rfl
    | destroy => simp [there] at h

theorem count_exec (ops : List Op) : (exec ops).n = ops.count .await := by
  induction ops using snocInd with
  | nil => rfl
  | snoc l op ih =>
    rw [exec_snoc, List.count_append, ← ih]
    generalize exec l = s
    cases op with
    | await => simp only [step, State.await]; split <;> simp
    | setActive b => simp only [step]; split <;> simp
    | timeout b => simp only [step]; split <;> simp
    | next => simp only [step, State.next]; split <;> (try split) <;> (try split) <;> (try split) <;> simp_all
    | destroy => simp only [step]; split <;> simp

/-- C78. `co_await timer` suspends exactly if the timer exists and is running. -/
theorem C78_suspends_iff (ops : List Op) :
    (exec (ops ++ [.await])).log =
      (exec ops).log ++ [if there ops && running ops then .waits (ops.count .await) else .passed (ops.count .await)] := by
  rw [exec_snoc, ← count_exec]
  simp only [step, State.await]
  have ha := alive_exec ops
  rcases Bool.eq_false_or_eq_true (there ops) with h | h
  · have hb := active_exec ops h
    rw [ha, hb, h]
    rcases Bool.eq_false_or_eq_true (running ops) with h' | h' <;> simp [h']
  · rw [ha, h]; simp

/-! Progress -/

/-- Emissions begun and not over. -/
theorem open_exec (ops : List Op) : ∀ e, .emission e ∈ (exec ops).log → .done e ∈ (exec ops).log ∨ ∃ f ∈ (exec ops).stack, f.e = e := by
  induction ops using snocInd with
  | nil => intro e h; simp [exec] at h
  | snoc l op ih =>
    rw [exec_snoc]
    generalize exec l = s at *
    intro e he
    cases op with
    | await =>
      have : ∃ x, s.await.log = s.log ++ [x] ∧ s.await.stack = s.stack ∧ x ≠ .emission e := by
        unfold State.await; split <;> exact ⟨_, rfl, rfl, by simp⟩
      obtain ⟨x, h1, h2, h3⟩ := this
      simp only [step, h1, h2] at he ⊢
      rcases List.mem_append.1 he with he | he
      · rcases ih e he with h | h
        · exact Or.inl (by simp [h])
        · exact Or.inr h
      · simp at he; exact absurd he.symm h3
    | setActive b =>
      simp only [step] at he ⊢
      split at he <;> rename_i hc
      · rw [if_pos hc]; exact ih e he
      · rw [if_neg hc]; exact ih e he
    | timeout b =>
      simp only [step] at he ⊢
      by_cases hc : (s.alive && s.active) = true
      · rw [if_pos hc] at he ⊢
        dsimp only at he ⊢
        rcases List.mem_append.1 he with he | he
        · rcases ih e he with h | ⟨f, hf, h⟩
          · exact Or.inl (by simp [h])
          · exact Or.inr ⟨f, by simp [hf], h⟩
        · simp at he; exact Or.inr ⟨_, List.mem_cons_self .., he.symm⟩
      · rw [if_neg hc] at he ⊢; exact ih e he
    | destroy =>
      simp only [step] at he ⊢
      by_cases hc : s.alive = true
      · rw [if_pos hc] at he ⊢
        simp at he
        rcases ih e he with h | h
        · exact Or.inl (by simp [h])
        · exact Or.inr h
      · rw [if_neg hc] at he ⊢; exact ih e he
    | next =>
      simp only [step] at he ⊢
      unfold State.next at he ⊢
      obtain ⟨stk, hs⟩ : ∃ stk, s.stack = stk := ⟨_, rfl⟩
      rw [hs] at he ih ⊢
      cases stk with
      | nil => have := ih e he; dsimp only at this ⊢; rw [hs]; exact this
      | cons f st =>
        dsimp only at he ⊢
        have pop : Ev.emission e ∈ s.log ++ [.done f.e] → .done e ∈ s.log ++ [.done f.e] ∨ ∃ g ∈ st, g.e = e := by
          intro he; simp at he
          rcases ih e he with h | ⟨g, hg, h⟩
          · exact Or.inl (by simp [h])
          · simp at hg; rcases hg with rfl | hg
            · exact Or.inl (by simp [h])
            · exact Or.inr ⟨g, hg, h⟩
        by_cases ha : s.alive = true
        · rw [if_neg (by simp [ha])] at he ⊢
          obtain ⟨td, ht⟩ : ∃ td, f.todo = td := ⟨_, rfl⟩
          rw [ht] at he ⊢
          cases td with
          | nil => exact pop he
          | cons k l =>
            dsimp only at he ⊢
            have go : Ev.emission e ∈ s.log → .done e ∈ s.log ∨ ∃ g ∈ { f with todo := l } :: st, g.e = e := by
              intro he
              rcases ih e he with h | ⟨g, hg, h⟩
              · exact Or.inl h
              · simp at hg; rcases hg with rfl | hg
                · exact Or.inr ⟨_, List.mem_cons_self .., h⟩
                · exact Or.inr ⟨g, by simp [hg], h⟩
            by_cases hk : k ∈ s.conns
            · rw [if_pos hk] at he ⊢
              dsimp only at he ⊢
              simp at he
              rcases go he with h | h
              · exact Or.inl (by simp [h])
              · exact Or.inr h
            · rw [if_neg hk] at he ⊢; exact go he
        · rw [if_pos (by simp [ha])] at he ⊢; exact pop he

/-- How many steps the emissions in progress need. -/
def work : List Emission → Nat
  | [] => 0
  | f :: st => f.todo.length + 1 + work st

theorem next_work (s : State) (h : s.stack ≠ []) : work s.next.stack < work s.stack := by
  unfold State.next
  obtain ⟨stk, hs⟩ : ∃ stk, s.stack = stk := ⟨_, rfl⟩
  rw [hs]
  cases stk with
  | nil => exact absurd hs h
  | cons f st =>
    dsimp only
    split
    · simp only [work]; omega
    · split
      · simp only [work]; omega
      · rename_i k l hk
        split <;> simp only [work, hk, List.length_cons] <;> omega

theorem next_log (s : State) : ∃ l, s.next.log = s.log ++ l ∧ (∀ e, .emission e ∉ l) ∧ .destroyed ∉ l := by
  unfold State.next
  split
  · exact ⟨[], by simp⟩
  · split
    · exact ⟨_, rfl, by simp, by simp⟩
    · split
      · exact ⟨_, rfl, by simp, by simp⟩
      · split
        · exact ⟨_, rfl, by simp, by simp⟩
        · exact ⟨[], by simp⟩

theorem drains (n : Nat) : ∀ ops, work (exec ops).stack ≤ n → ∃ j l, (exec (ops ++ List.replicate j .next)).stack = [] ∧
    (exec (ops ++ List.replicate j .next)).log = (exec ops).log ++ l ∧ (∀ e, .emission e ∉ l) ∧ .destroyed ∉ l := by
  induction n with
  | zero =>
    intro ops h
    refine ⟨0, [], ?_, by simp, by simp, by simp⟩
    obtain ⟨stk, hs⟩ : ∃ stk, (exec ops).stack = stk := ⟨_, rfl⟩
    rw [hs] at h
    cases stk with
    | nil => simpa using hs
    | cons f st => simp [work] at h
  | succ n ih =>
    intro ops h
    by_cases hz : (exec ops).stack = []
    · exact ⟨0, [], by simpa using hz, by simp, by simp, by simp⟩
    · have hw := next_work _ hz
      have he : exec (ops ++ [.next]) = (exec ops).next := by rw [exec_snoc]; rfl
      obtain ⟨j, l, h1, h2, h3, h4⟩ := ih (ops ++ [.next]) (by rw [he]; omega)
      obtain ⟨l0, g1, g2, g3⟩ := next_log (exec ops)
      refine ⟨j + 1, l0 ++ l, ?_, ?_, ?_, ?_⟩
      · rw [List.replicate_succ]; simpa using h1
      · rw [List.replicate_succ]
        have : ops ++ Op.next :: List.replicate j .next = ops ++ [.next] ++ List.replicate j .next := by simp
        rw [this, h2, he, g1]; simp
      · intro e hm; rcases List.mem_append.1 hm with hm | hm
        · exact g2 e hm
        · exact h3 e hm
      · intro hm; rcases List.mem_append.1 hm with hm | hm
        · exact g3 hm
        · exact h4 hm

/-- C78. Progress: an emission goes on as the coroutines it continues give control back. After finitely many such steps every
emission is over, and then every coroutine that waited when the timer timed out last is continued, unless the timer is destroyed. -/
theorem C78_progress (ops : List Op) {pre mid e} (hl : (exec ops).log = pre ++ .emission e :: mid) (hd : .destroyed ∉ (exec ops).log) :
    ∃ j, ∀ k ∈ suspended pre, k ∈ continued (exec (ops ++ List.replicate j .next)).log := by
  obtain ⟨j, l, h1, h2, h3, h4⟩ := drains _ ops (Nat.le_refl _)
  refine ⟨j, ?_⟩
  generalize ops ++ List.replicate j .next = ops2 at *
  have hm : .emission e ∈ (exec ops2).log := by rw [h2, hl]; simp
  rcases open_exec ops2 e hm with hdone | ⟨f, hf, _⟩
  · obtain ⟨a, b, hab⟩ := List.append_of_mem hdone
    obtain ⟨_, p1, p2, hp, _⟩ := (inv_exec ops2).legal _ _ _ hab
    have hab' : (exec ops2).log = p1 ++ .emission e :: p2 ++ .done e :: b := by rw [hab, hp]
    have hnd : .destroyed ∉ (exec ops2).log := by rw [h2]; intro h; rcases List.mem_append.1 h with h | h; exact hd h; exact h4 h
    have hsp : p1 = pre := by
      have e1 : p1 ++ .emission e :: (p2 ++ .done e :: b) = pre ++ .emission e :: (mid ++ l) := by
        rw [h2, hl] at hab'; simpa using hab'.symm
      refine (split_emission e1 ?_ ?_).1
      · exact ((inv_exec ops2).legal p1 (.emission e) (p2 ++ .done e :: b) (by rw [hab']; simp)).1
      · exact ((inv_exec ops2).legal pre (.emission e) (mid ++ l) (by rw [h2, hl]; simp)).1
    intro k hk
    have := C78_one_timeout_continues_all hab' (by rw [hab'] at hnd; intro h; exact hnd (List.mem_append_left _ h)) k (by rw [hsp]; exact hk)
    rw [hab', continued_append]; simp [this]
  · rw [h1] at hf; cases hf

/-! ### Concrete cases -/

/-- Three coroutines wait; the first one continued awaits the timer again, then runs an event loop in which the timer times out
again: that inner timeout continues the other two and the first one again. -/
def nested : List Op :=
  [.setActive true, .await, .await, .await, .timeout false, .next, .await, .timeout false, .next, .next, .next, .next, .next, .next, .next]

/-- The hypotheses are met. -/
example : (exec nested).log = [.waits 0, .waits 1, .waits 2, .emission 0, .resumed 0 0, .waits 3, .emission 1, .resumed 1 1, .resumed 2 1,
    .resumed 3 1, .done 1, .done 0] := by decide

/-- The first of three coroutines destroys the timer: the other two wait for ever. -/
theorem C78_destroyed_strands_example :
    let s := exec [.setActive true, .await, .await, .await, .timeout true, .next, .destroy, .next]
    s.log = [.waits 0, .waits 1, .waits 2, .emission 0, .resumed 0 0, .destroyed, .done 0] ∧ s.stack = [] := by decide

/-- A coroutine that awaits a periodic timer in a loop gets one timeout per round; a single-shot timer is not running any more. -/
example : (exec [.setActive true, .await, .timeout false, .next, .await, .next, .timeout true, .next, .await, .next]).log =
    [.waits 0, .emission 0, .resumed 0 0, .waits 1, .done 0, .emission 1, .resumed 1 1, .passed 2, .done 1] := by decide

end QCoro.Timers
