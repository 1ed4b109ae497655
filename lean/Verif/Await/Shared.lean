import Verif.Await.Classes
/-
Several coroutines, also of several threads, awaiting one `QFuture` (or one D-Bus call): property C83.

Every `co_await` makes its own watcher (`qcoro/core/qcorofuture.h:34-41`, `qcoro/dbus/qcorodbuspendingcall.cpp:20-27`,
`qcoro/dbus/qcorodbuspendingreply.h:42-49`), whose `finished` is posted to the thread of the coroutine when the future finishes, and at once
if it has finished before. What the coroutines get out of the future is shared: `takeResult()` takes it from all of them.
-/
set_option linter.unusedSimpArgs false
set_option linter.unusedVariables false
namespace QCoro.Shared
open QCoro
open QCoro.Aw (Stored)

variable {ν : Type}

/-- `co_await future` and `qCoro(future).result()` (`qcoro/core/qcorofuture.h:51-53`), or `takeResult()` (`:76-78`). -/
inductive Use | result | take
deriving DecidableEq, Repr

/-- The `co_await` number `k`, in thread `t`. Bookkeeping of the model, no counterpart in /repo. -/
structure Who where
  k : Nat
  t : Nat
  u : Use
deriving DecidableEq, Repr

/-- What a `co_await` evaluates to: a value, an exception, or (`nothing`) undefined behaviour, there is no result to return. -/
inductive Out (ν : Type) | value (v : ν) | throws (e : Nat) | nothing
deriving DecidableEq, Repr

/-- How the coroutine came to it: without suspending, after having blocked its thread, or resumed by its watcher. -/
inductive How | atOnce | unblocked | resumed
deriving DecidableEq, Repr

/-- What happens, as the application sees it. Observations, no counterpart in /repo. -/
inductive Ev (ν : Type)
  | suspends (w : Who)
  | blocks (w : Who)
  | got (w : Who) (h : How) (o : Out ν)
  | finished (c : Stored ν)
  | canceled
deriving DecidableEq, Repr

/-- The shared state of the future (Qt), the coroutines between `await_ready` and `setFuture` (`asking`), the watchers that wait for the future,
the `finished` events posted, the threads blocked in `QFuture::result()`. -/
structure State (ν : Type) where
  isFinished : Bool := false
  isCanceled : Bool := false
  content : Stored ν := .nothing
  done : Bool := false            -- the producer has finished
  n : Nat := 0
  asking : List Who := []
  waiting : List Who := []
  queue : List Who := []
  blocked : List Who := []
  log : List (Ev ν) := []
  ub : Bool := false

/-- What can happen next. -/
inductive Op (ν : Type)
  | check (t : Nat) (u : Use)     -- a coroutine of thread t executes co_await: await_ready()
  | subscribe (k : Nat)           -- … await_suspend()
  | loop (t : Nat)                -- the event loop of thread t handles the next `finished` event
  | unblock (k : Nat)             -- a blocked QFuture::result() returns
  | finish (c : Stored ν)         -- the producer finishes
  | cancel

/-- The first element that satisfies `p`, and the others. -/
def pick (p : Who → Bool) : List Who → Option (Who × List Who)
  | [] => none
  | w :: l => if p w then some (w, l) else (pick p l).map (fun x => (x.1, w :: x.2))

/-- `await_resume` (`qcoro/core/qcorofuture.h:51-53`, `:76-78`; `qcoro/dbus/qcorodbuspendingcall.cpp:29-32`, `qcorodbuspendingreply.h:51-54`): what
`QFuture::result()` and `takeResult()` do (Qt 6). `takeResult()` resets the future: the result is gone; `keep` says whether `isFinished()` stays
true (it does not in Qt 6; the theorems hold for both). -/
def State.perform (keep : Bool) (s : State ν) (w : Who) (h : How) : State ν :=
  match s.content with
  | .value v =>
    match w.u with
    | .result => { s with log := s.log ++ [.got w h (.value v)] }
    | .take => { s with content := .nothing, isFinished := keep, isCanceled := keep && s.isCanceled, log := s.log ++ [.got w h (.value v)] }
  | .exception e => { s with log := s.log ++ [.got w h (.throws e)] }
  | .nothing => { s with ub := true, log := s.log ++ [.got w h .nothing] }

/-- One step (`qcoro/core/qcorofuture.h:30-41`, `qcoro/dbus/qcorodbuspendingcall.cpp:16-27`, `qcoro/dbus/qcorodbuspendingreply.h:38-49`; lines at each case). -/
def step (keep : Bool) (s : State ν) (op : Op ν) : State ν :=
  if s.ub then s else
  match op with
  | .check t u =>          -- `qcorofuture.h:30-32`: finished or canceled; a canceled one that is still running: result() blocks the thread
    if s.blocked.any (fun b => b.t == t) then s
    else if s.isFinished then ({ s with n := s.n + 1 } : State ν).perform keep ⟨s.n, t, u⟩ .atOnce
    else if s.isCanceled then { s with n := s.n + 1, blocked := s.blocked ++ [⟨s.n, t, u⟩], log := s.log ++ [.blocks ⟨s.n, t, u⟩] }
    else { s with n := s.n + 1, asking := s.asking ++ [⟨s.n, t, u⟩] }
  | .subscribe k =>        -- `qcorofuture.h:34-41`: the watcher of a finished future posts its event at once (Qt)
    match pick (fun w => w.k == k) s.asking with
    | none => s
    | some (w, r) =>
      if s.isFinished then { s with asking := r, queue := s.queue ++ [w], log := s.log ++ [.suspends w] }
      else { s with asking := r, waiting := s.waiting ++ [w], log := s.log ++ [.suspends w] }
  | .loop t =>             -- `qcorofuture.h:36-39`: the slot resumes the coroutine
    if s.blocked.any (fun b => b.t == t) then s
    else match pick (fun w => w.t == t) s.queue with
    | none => s
    | some (w, r) => ({ s with queue := r } : State ν).perform keep w .resumed
  | .unblock k =>
    if s.done then
      match pick (fun w => w.k == k) s.blocked with
      | none => s
      | some (w, r) => ({ s with blocked := r } : State ν).perform keep w .unblocked
    else s
  | .finish c =>
    if s.done then s
    else { s with isFinished := true, content := c, done := true, queue := s.queue ++ s.waiting, waiting := [], log := s.log ++ [.finished c] }
  | .cancel => { s with isCanceled := true, log := s.log ++ [.canceled] }

/-- Everything that happens, from a running future on. Bookkeeping of the model, no counterpart in /repo. -/
def exec (keep : Bool) (ops : List (Op ν)) : State ν := ops.foldl (step keep) {}

theorem exec_snoc (keep : Bool) (ops : List (Op ν)) (op : Op ν) : exec keep (ops ++ [op]) = step keep (exec keep ops) op := by simp [exec]

/-! ### Specification -/

/-- The coroutine that an event suspends. -/
def suspendsW : Ev ν → Option Who | .suspends w => some w | _ => none
/-- The coroutine that an event continues after it had suspended. -/
def resumedW : Ev ν → Option Who | .got w .resumed _ => some w | _ => none
/-- The coroutine that gets its outcome. -/
def gotW : Ev ν → Option Who | .got w _ _ => some w | _ => none

/-- The coroutines of thread `t` that suspended, in order. -/
def suspended (t : Nat) (l : List (Ev ν)) : List Who := (l.filterMap suspendsW).filter (fun w => w.t == t)
/-- The coroutines of thread `t` that were continued after having suspended, in order. -/
def continued (t : Nat) (l : List (Ev ν)) : List Who := (l.filterMap resumedW).filter (fun w => w.t == t)
/-- How often the `co_await` number `k` got an outcome. -/
def outcomes (k : Nat) (l : List (Ev ν)) : Nat := ((l.filterMap gotW).map Who.k).count k

/-- What the future finished with. -/
def content (l : List (Ev ν)) : Option (Stored ν) := (l.filterMap (fun | .finished c => some c | _ => none)).head?

/-- Somebody has taken the result. -/
def Taken (l : List (Ev ν)) : Prop := ∃ w h v, .got w h (.value v) ∈ l ∧ w.u = .take

/-- What a `co_await` has to evaluate to after the history `l`. -/
def outcome (l : List (Ev ν)) (o : Out ν) : Prop :=
  match content l with
  | none => False
  | some .nothing => o = .nothing
  | some (.exception e) => o = .throws e
  | some (.value v) => (¬ Taken l ∧ o = .value v) ∨ (Taken l ∧ o = .nothing)

/-! ### Proofs -/

theorem pick_some {p : Who → Bool} : ∀ {l : List Who} {w : Who} {r : List Who}, pick p l = some (w, r) →
    p w = true ∧ l.filter p = w :: r.filter p ∧ (∀ q : Who → Bool, q w = false → l.filter q = r.filter q) ∧
    ∀ j, (l.map Who.k).count j = (r.map Who.k).count j + (if w.k = j then 1 else 0)
  | [], w, r, h => by cases h
  | x :: l, w, r, h => by
    unfold pick at h
    by_cases hx : p x = true
    · rw [if_pos hx] at h
      cases h
      refine ⟨hx, by rw [List.filter_cons_of_pos hx], fun q hq => by rw [List.filter_cons_of_neg (by simp [hq])], fun j => ?_⟩
      rw [List.map_cons, List.count_cons]; simp
    · rw [if_neg hx] at h
      obtain ⟨y, hy, he⟩ := Option.map_eq_some_iff.1 h
      obtain ⟨yw, yr⟩ := y
      simp only [Prod.mk.injEq] at he
      obtain ⟨rfl, rfl⟩ := he
      obtain ⟨h1, h2, h3, h4⟩ := pick_some hy
      refine ⟨h1, ?_, ?_, ?_⟩
      · rw [List.filter_cons_of_neg hx, List.filter_cons_of_neg hx, h2]
      · intro q hq; rw [List.filter_cons, List.filter_cons, h3 q hq]
      · intro j; rw [List.map_cons, List.count_cons, List.map_cons, List.count_cons, h4 j]; omega

theorem pick_none {p : Who → Bool} : ∀ {l : List Who}, pick p l = none ↔ l.filter p = []
  | [] => by simp [pick]
  | x :: l => by
    unfold pick
    by_cases hx : p x = true
    · rw [if_pos hx, List.filter_cons_of_pos hx]; simp
    · rw [if_neg hx, List.filter_cons_of_neg hx, Option.map_eq_none_iff, pick_none]

theorem content_snoc (l : List (Ev ν)) (e : Ev ν) : content (l ++ [e]) = (content l).or (match e with | .finished c => some c | _ => none) := by
  unfold content
  rw [List.filterMap_append, List.head?_append]
  cases e <;> simp

theorem taken_snoc (l : List (Ev ν)) (e : Ev ν) : Taken (l ++ [e]) ↔ Taken l ∨ ∃ w h v, e = .got w h (.value v) ∧ w.u = .take := by
  unfold Taken
  simp only [List.mem_append, List.mem_singleton]
  constructor
  · rintro ⟨w, h, v, h1 | h1, h2⟩
    · exact .inl ⟨w, h, v, h1, h2⟩
    · exact .inr ⟨w, h, v, h1.symm, h2⟩
  · rintro (⟨w, h, v, h1, h2⟩ | ⟨w, h, v, h1, h2⟩)
    · exact ⟨w, h, v, .inl h1, h2⟩
    · exact ⟨w, h, v, .inr h1.symm, h2⟩

theorem suspended_snoc (t : Nat) (l : List (Ev ν)) (e : Ev ν) :
    suspended t (l ++ [e]) = suspended t l ++ ((suspendsW e).toList).filter (fun w => w.t == t) := by
  unfold suspended
  rw [List.filterMap_append, List.filter_append]
  cases e <;> simp [suspendsW, List.filterMap_cons]

theorem continued_snoc (t : Nat) (l : List (Ev ν)) (e : Ev ν) :
    continued t (l ++ [e]) = continued t l ++ ((resumedW e).toList).filter (fun w => w.t == t) := by
  unfold continued
  rw [List.filterMap_append, List.filter_append]
  cases h : resumedW e <;> simp [List.filterMap_cons, h]

theorem outcomes_snoc (k : Nat) (l : List (Ev ν)) (e : Ev ν) :
    outcomes k (l ++ [e]) = outcomes k l + ((gotW e).toList.map Who.k).count k := by
  unfold outcomes
  rw [List.filterMap_append, List.map_append, List.count_append]
  cases h : gotW e <;> simp [List.filterMap_cons, h]

/-- Where the `co_await` number `j` is. -/
def places (j : Nat) (s : State ν) : Nat :=
  (s.asking.map Who.k).count j + (s.waiting.map Who.k).count j + (s.queue.map Who.k).count j + (s.blocked.map Who.k).count j + outcomes j s.log

/-- Proof invariant. -/
structure Inv (keep : Bool) (s : State ν) : Prop where
  run : s.done = false → s.isFinished = false ∧ s.content = .nothing ∧ content s.log = none ∧ s.queue = []
  fin : s.done = true → (content s.log).isSome
  cont : s.done = true → ¬ Taken s.log → content s.log = some s.content ∧ s.isFinished = true
  gone : Taken s.log → s.content = .nothing ∧ s.done = true ∧ s.isFinished = keep ∧ ∃ v, content s.log = some (.value v)
  wait : s.isFinished = true → s.waiting = []
  fifo : ∀ t, suspended t s.log = continued t s.log ++ (s.queue ++ s.waiting).filter (fun w => w.t == t)
  ids : ∀ j, places j s = if j < s.n then 1 else 0
  ub : s.ub = true ↔ ∃ w h, .got w h .nothing ∈ s.log
  outs : ∀ pre w h o post, s.log = pre ++ .got w h o :: post → outcome pre o
  how : ∀ w h o, .got w h o ∈ s.log → s.done = true

theorem snoc_split {α : Type} {l : List α} {y x : α} {p q : List α} (h : l ++ [y] = p ++ x :: q) :
    (q = [] ∧ p = l ∧ x = y) ∨ ∃ q', q = q' ++ [y] ∧ l = p ++ x :: q' := by
  rcases List.eq_nil_or_concat q with rfl | ⟨q', z, rfl⟩
  · obtain ⟨h1, h2⟩ := List.append_inj' h rfl
    simp at h2; exact .inl ⟨rfl, h1.symm, h2.symm⟩
  · rw [show p ++ x :: q'.concat z = (p ++ x :: q') ++ [z] by simp] at h
    obtain ⟨h1, h2⟩ := List.append_inj' h rfl
    simp at h2; subst h2; exact .inr ⟨q', by simp, h1⟩

/-- What `perform` sees is the outcome. -/
theorem outcome_now {keep : Bool} {s : State ν} (hi : Inv keep s) (hd : s.done = true) :
    outcome s.log (match s.content with | .value v => .value v | .exception e => .throws e | .nothing => .nothing) := by
  unfold outcome
  by_cases ht : Taken s.log
  · obtain ⟨h1, _, _, v, h2⟩ := hi.gone ht
    rw [h1, h2]; exact .inr ⟨ht, rfl⟩
  · rw [(hi.cont hd ht).1]
    cases s.content <;> simp [ht]

/-- `s` with `w` about to get its outcome: everything holds but the place of `w`. -/
theorem perform_inv {keep : Bool} {s0 s : State ν} (hi : Inv keep s0) (hu : s0.ub = false) (hd : s0.done = true) (w : Who) (h : How)
    (e1 : s.isFinished = s0.isFinished) (e2 : s.isCanceled = s0.isCanceled) (e3 : s.content = s0.content) (e4 : s.done = s0.done)
    (e5 : s.log = s0.log) (e6 : s.ub = s0.ub) (e7 : s.waiting = s0.waiting)
    (hq : ∀ t, (s0.queue ++ s0.waiting).filter (fun w => w.t == t) =
      ((if h = .resumed then [w] else []).filter (fun w => w.t == t)) ++ (s.queue ++ s.waiting).filter (fun w => w.t == t))
    (hp : ∀ j, places j s + (if w.k = j then 1 else 0) = if j < s.n then 1 else 0) : Inv keep (s.perform keep w h) := by
  have hnow := outcome_now hi hd
  have hfifo : ∀ (o : Out ν) t, suspended t (s0.log ++ [.got w h o]) = continued t (s0.log ++ [.got w h o]) ++ (s.queue ++ s.waiting).filter (fun w => w.t == t) := by
    intro o t
    rw [suspended_snoc, continued_snoc, hi.fifo t, hq t]
    cases h <;> simp [suspendsW, resumedW, List.append_assoc]
  have hpl : ∀ (o : Out ν) j, (s.asking.map Who.k).count j + (s.waiting.map Who.k).count j + (s.queue.map Who.k).count j + (s.blocked.map Who.k).count j +
      outcomes j (s0.log ++ [.got w h o]) = if j < s.n then 1 else 0 := by
    intro o j
    have := hp j
    unfold places at this
    rw [e5] at this
    rw [outcomes_snoc, ← this]
    simp [gotW, List.count_cons]; omega
  have houts : ∀ o, outcome s0.log o → ∀ pre w' h' o' post, s0.log ++ [.got w h o] = pre ++ .got w' h' o' :: post → outcome pre o' := by
    intro o ho pre w' h' o' post hl
    rcases snoc_split hl with ⟨_, rfl, he⟩ | ⟨q', _, he⟩
    · cases he; exact ho
    · exact hi.outs _ _ _ _ _ he
  have hc : ∀ o, content (s0.log ++ [.got w h o]) = content s0.log := by intro o; rw [content_snoc]; simp
  have hub : ∀ o, o ≠ .nothing → (s0.ub = true ↔ ∃ w' h', .got w' h' .nothing ∈ s0.log ++ [.got w h o]) := by
    intro o ho; rw [hi.ub]; simp [ho.symm]
  unfold State.perform
  rw [e3]
  obtain ⟨c, hcont⟩ : ∃ c, s0.content = c := ⟨_, rfl⟩
  have hgone := hi.gone
  have hcc := hi.cont
  rw [hcont] at hnow hgone hcc ⊢
  have hmem : ∀ o, (∀ w' h' o', .got w' h' o' ∈ s0.log ++ [.got w h o] → s0.done = true) := fun _ _ _ _ _ => hd
  cases c with
  | value v =>
    have hnt : ¬ Taken s0.log := fun ht => by rw [(hi.gone ht).1] at hcont; cases hcont
    dsimp only
    obtain ⟨u, huse⟩ : ∃ u, w.u = u := ⟨_, rfl⟩
    rw [huse]
    cases u with
    | result =>
      have hnt' : ¬ Taken (s0.log ++ [.got w h (.value v)]) := by
        rw [taken_snoc]; rintro (ht | ⟨w', h', v', he, hu'⟩)
        · exact hnt ht
        · cases he; rw [huse] at hu'; cases hu'
      constructor <;> dsimp only <;> (try rw [e5]) <;> (try rw [e4])
      · intro hf; rw [hd] at hf; cases hf
      · intro _; rw [hc]; exact hi.fin hd
      · intro _ _; rw [hc, e1]; exact hcc hd hnt
      · intro ht; exact absurd ht hnt'
      · rw [e1, e7]; exact hi.wait
      · exact hfifo _
      · exact hpl _
      · rw [e6]; exact hub _ (by simp)
      · exact houts _ hnow
      · exact hmem _
    | take =>
      constructor <;> dsimp only <;> (try rw [e5]) <;> (try rw [e4])
      · intro hf; rw [hd] at hf; cases hf
      · intro _; rw [hc]; exact hi.fin hd
      · intro _ hn
        exact absurd ((taken_snoc _ _).2 (.inr ⟨w, h, v, rfl, huse⟩)) hn
      · intro _; exact ⟨rfl, hd, rfl, v, by rw [hc, (hi.cont hd hnt).1, hcont]⟩
      · intro _; rw [e7]; exact hi.wait (hi.cont hd hnt).2
      · exact hfifo _
      · exact hpl _
      · rw [e6]; exact hub _ (by simp)
      · exact houts _ hnow
      · exact hmem _
  | exception e =>
    have htk : Taken (s0.log ++ [.got w h (.throws e)]) ↔ Taken s0.log := by
      rw [taken_snoc]; simp
    constructor <;> dsimp only <;> (try rw [e5]) <;> (try rw [e4])
    · intro hf; rw [hd] at hf; cases hf
    · intro _; rw [hc]; exact hi.fin hd
    · rw [hc, e1, htk]; exact hcc
    · rw [htk, hc, e1]; exact hgone
    · rw [e1, e7]; exact hi.wait
    · exact hfifo _
    · exact hpl _
    · rw [e6]; exact hub _ (by simp)
    · exact houts _ hnow
    · exact hmem _
  | nothing =>
    have htk : Taken (s0.log ++ [.got w h .nothing]) ↔ Taken s0.log := by
      rw [taken_snoc]; simp
    constructor <;> dsimp only <;> (try rw [e5]) <;> (try rw [e4])
    · intro hf; rw [hd] at hf; cases hf
    · intro _; rw [hc]; exact hi.fin hd
    · rw [hc, e1, htk]; exact hcc
    · rw [htk, hc, e1]; exact hgone
    · rw [e1, e7]; exact hi.wait
    · exact hfifo _
    · exact hpl _
    · exact ⟨fun _ => ⟨w, h, by simp⟩, fun _ => rfl⟩
    · exact houts _ hnow
    · exact hmem _

/-- Steps that neither finish the future nor give anybody anything. -/
theorem quiet_inv {keep : Bool} {s s' : State ν} (hi : Inv keep s) (l : List (Ev ν)) (hlog : s'.log = s.log ++ l)
    (hl : ∀ e ∈ l, (∃ w, e = .suspends w) ∨ (∃ w, e = .blocks w) ∨ e = .canceled)
    (e1 : s'.isFinished = s.isFinished) (e3 : s'.content = s.content) (e4 : s'.done = s.done) (e6 : s'.ub = s.ub)
    (hq : s.done = false → s'.queue = []) (hw : s.isFinished = true → s'.waiting = [])
    (hf : ∀ t, (s'.queue ++ s'.waiting).filter (fun w => w.t == t) = (s.queue ++ s.waiting).filter (fun w => w.t == t) ++ suspended t l)
    (hp : ∀ j, places j s' = if j < s'.n then 1 else 0) : Inv keep s' := by
  have hc : content s'.log = content s.log := by
    rw [hlog]; unfold content
    have : l.filterMap (fun | Ev.finished c => some c | _ => none) = [] := by
      rw [List.filterMap_eq_nil_iff]; intro e he
      rcases hl e he with ⟨w, rfl⟩ | ⟨w, rfl⟩ | rfl <;> rfl
    rw [List.filterMap_append, this, List.append_nil]
  have hg : ∀ w h o, .got w h o ∈ s'.log ↔ .got w h o ∈ s.log := by
    intro w h o; rw [hlog, List.mem_append]
    constructor
    · rintro (h' | h')
      · exact h'
      · rcases hl _ h' with ⟨w, he⟩ | ⟨w, he⟩ | he <;> cases he
    · exact .inl
  have ht : Taken s'.log ↔ Taken s.log := by unfold Taken; simp only [hg]
  have hr : ∀ t, continued t s'.log = continued t s.log := by
    intro t; rw [hlog]; unfold continued
    have : l.filterMap resumedW = [] := by
      rw [List.filterMap_eq_nil_iff]; intro e he
      rcases hl e he with ⟨w, rfl⟩ | ⟨w, rfl⟩ | rfl <;> rfl
    rw [List.filterMap_append, this, List.append_nil]
  refine ⟨?_, ?_, ?_, ?_, ?_, ?_, hp, ?_, ?_, ?_⟩
  · rw [e4, e1, e3, hc]; intro hd; have := hi.run hd; exact ⟨this.1, this.2.1, this.2.2.1, hq hd⟩
  · rw [e4, hc]; exact hi.fin
  · rw [e4, ht, hc, e3, e1]; exact hi.cont
  · rw [ht, e3, e4, e1, hc]; exact hi.gone
  · rw [e1]; exact hw
  · intro t; rw [hr, hf, ← List.append_assoc, ← hi.fifo t, hlog]
    unfold suspended; rw [List.filterMap_append, List.filter_append]
  · rw [e6, hi.ub]; simp only [hg]
  · intro pre w h o post he
    rw [hlog] at he
    rcases List.append_eq_append_iff.1 he with ⟨a, ha, hb⟩ | ⟨a, ha, hb⟩
    · exfalso
      have : Ev.got w h o ∈ l := by rw [hb]; simp
      rcases hl _ this with ⟨w, he⟩ | ⟨w, he⟩ | he <;> cases he
    · rcases a with _ | ⟨x, a⟩
      · exfalso
        simp at hb
        have : Ev.got w h o ∈ l := by rw [← hb]; simp
        rcases hl _ this with ⟨w, he⟩ | ⟨w, he⟩ | he <;> cases he
      · simp at hb
        obtain ⟨rfl, _⟩ := hb
        exact hi.outs pre w h o a ha
  · intro w h o he; rw [e4]; exact hi.how w h o ((hg w h o).1 he)

theorem done_of_finished {keep : Bool} {s : State ν} (hi : Inv keep s) (h : s.isFinished = true) : s.done = true := by
  rcases Bool.eq_false_or_eq_true s.done with h' | h'
  · exact h'
  · rw [(hi.run h').1] at h; cases h

theorem done_of_queue {keep : Bool} {s : State ν} (hi : Inv keep s) (h : s.queue ≠ []) : s.done = true := by
  rcases Bool.eq_false_or_eq_true s.done with h' | h'
  · exact h'
  · exact absurd (hi.run h').2.2.2 h

theorem inv_step {keep : Bool} {s : State ν} (hi : Inv keep s) (op : Op ν) : Inv keep (step keep s op) := by
  unfold step
  split
  · exact hi
  rename_i hub
  have hub : s.ub = false := by simpa using hub
  have hn0 : ∀ j, (s.asking.map Who.k).count j + (s.waiting.map Who.k).count j + (s.queue.map Who.k).count j + (s.blocked.map Who.k).count j + outcomes j s.log
      = if j < s.n then 1 else 0 := hi.ids
  have outc : ∀ (j : Nat) (e : Ev ν), gotW e = none → outcomes j (s.log ++ [e]) = outcomes j s.log := by
    intro j e he; rw [outcomes_snoc, he]; simp
  cases op with
  | check t u =>
    dsimp only
    split
    · exact hi
    split
    · rename_i hf
      refine perform_inv hi hub (done_of_finished hi hf) _ _ rfl rfl rfl rfl rfl rfl rfl (fun t' => by simp) ?_
      intro j
      have := hn0 j
      unfold places; dsimp only
      by_cases hj : s.n = j
      · subst hj; simp at this ⊢; omega
      · rw [this]; simp only [hj, if_false]
        by_cases h1 : j < s.n
        · rw [if_pos h1, if_pos (by omega)]
        · rw [if_neg h1, if_neg (by omega)]
    split
    · refine quiet_inv hi [.blocks ⟨s.n, t, u⟩] rfl (by intro e he; simp at he; exact .inr (.inl ⟨_, he⟩)) rfl rfl rfl rfl (fun h => (hi.run h).2.2.2) hi.wait (by intro t'; simp [suspended, suspendsW]) ?_
      intro j
      have := hn0 j
      unfold places; dsimp only
      rw [outc j _ rfl, List.map_append, List.count_append]
      by_cases hj : s.n = j
      · subst hj; simp at this ⊢; omega
      · simp only [List.map_cons, List.map_nil, List.count_cons, List.count_nil, beq_iff_eq, hj, if_false]
        by_cases h1 : j < s.n
        · rw [if_pos h1] at this; rw [if_pos (by omega)]; omega
        · rw [if_neg h1] at this; rw [if_neg (by omega)]; omega
    · refine quiet_inv hi [] (by simp) (by simp) rfl rfl rfl rfl (fun h => (hi.run h).2.2.2) hi.wait (by intro t'; simp [suspended]) ?_
      intro j
      have := hn0 j
      unfold places; dsimp only
      rw [List.map_append, List.count_append]
      by_cases hj : s.n = j
      · subst hj; simp at this ⊢; omega
      · simp only [List.map_cons, List.map_nil, List.count_cons, List.count_nil, beq_iff_eq, hj, if_false]
        by_cases h1 : j < s.n
        · rw [if_pos h1] at this; rw [if_pos (by omega)]; omega
        · rw [if_neg h1] at this; rw [if_neg (by omega)]; omega
  | subscribe k =>
    dsimp only
    split
    · exact hi
    · rename_i w r hp
      obtain ⟨h1, _, _, h4⟩ := pick_some hp
      have hsu : ∀ t, suspended t ([.suspends w] : List (Ev ν)) = [w].filter (fun w => w.t == t) := by intro t; simp [suspended, suspendsW]
      split
      · rename_i hf
        have hwt := hi.wait hf
        refine quiet_inv hi [.suspends w] rfl (by intro e he; simp at he; exact .inl ⟨_, he⟩) rfl rfl rfl rfl ?_ hi.wait ?_ ?_
        · intro hd; rw [done_of_finished hi hf] at hd; cases hd
        · intro t; rw [hsu]; dsimp only; rw [hwt]; simp
        · intro j; have := hn0 j; have h5 := h4 j
          unfold places; dsimp only
          rw [outc j _ rfl, List.map_append, List.count_append, ← this, h5]
          simp [List.count_cons]; omega
      · rename_i hf
        refine quiet_inv hi [.suspends w] rfl (by intro e he; simp at he; exact .inl ⟨_, he⟩) rfl rfl rfl rfl (fun h => (hi.run h).2.2.2) (fun h => absurd h hf) ?_ ?_
        · intro t; rw [hsu]; dsimp only; rw [← List.append_assoc, List.filter_append]
        · intro j; have := hn0 j; have h5 := h4 j
          unfold places; dsimp only
          rw [outc j _ rfl, List.map_append, List.count_append, ← this, h5]
          simp [List.count_cons]; omega
  | loop t =>
    dsimp only
    split
    · exact hi
    split
    · exact hi
    · rename_i w r hp
      obtain ⟨h1, h2, h3, h4⟩ := pick_some hp
      have hd : s.done = true := done_of_queue hi (by intro e; rw [e] at hp; cases hp)
      refine perform_inv hi hub hd _ _ rfl rfl rfl rfl rfl rfl rfl ?_ ?_
      · intro t'
        dsimp only
        rw [List.filter_append, List.filter_append]
        simp only [if_true]
        by_cases ht : w.t = t'
        · have : t = t' := by rw [← ht]; exact (show w.t = t by simpa using h1).symm
          subst this
          rw [h2]; simp [ht]
        · rw [h3 (fun w => w.t == t') (by simpa using ht)]; simp [ht]
      · intro j; have := hn0 j; have h5 := h4 j
        unfold places; dsimp only
        rw [← this, h5]; omega
  | unblock k =>
    dsimp only
    split
    · rename_i hd
      split
      · exact hi
      · rename_i w r hp
        obtain ⟨h1, h2, h3, h4⟩ := pick_some hp
        refine perform_inv hi hub hd _ _ rfl rfl rfl rfl rfl rfl rfl (by simp) ?_
        intro j; have := hn0 j; have h5 := h4 j
        unfold places; dsimp only
        rw [← this, h5]; omega
    · exact hi
  | finish c =>
    dsimp only
    split
    · exact hi
    · rename_i hd
      have hd : s.done = false := by simpa using hd
      have hr := hi.run hd
      have hng : ∀ w h o, .got w h o ∉ s.log := fun w h o hm => by rw [hi.how w h o hm] at hd; cases hd
      have htk : ¬ Taken (s.log ++ [.finished c]) := by
        rw [taken_snoc]; rintro (⟨w, h, v, hm, _⟩ | ⟨w, h, v, he, _⟩)
        · exact hng _ _ _ hm
        · cases he
      have hc : content (s.log ++ [.finished c]) = some c := by rw [content_snoc, hr.2.2.1]; rfl
      constructor <;> dsimp only
      · intro h; cases h
      · intro _; rw [hc]; rfl
      · intro _ _; exact ⟨hc, rfl⟩
      · intro h; exact absurd h htk
      · intro _; rfl
      · intro t; rw [suspended_snoc, continued_snoc]; simp only [suspendsW, resumedW, Option.toList_none, List.filter_nil, List.append_nil]
        exact hi.fifo t
      · intro j; have := hn0 j
        unfold places; dsimp only
        rw [outc j _ rfl, List.map_append, List.count_append, ← this]; simp; omega
      · rw [hi.ub]; simp
      · intro pre w h o post he
        rcases snoc_split he with ⟨_, _, he'⟩ | ⟨q', _, he'⟩
        · cases he'
        · exact hi.outs _ _ _ _ _ he'
      · intro _ _ _ _; rfl
  | cancel =>
    refine quiet_inv hi [.canceled] rfl (by intro e he; simp at he; exact .inr (.inr he)) rfl rfl rfl rfl (fun h => (hi.run h).2.2.2) hi.wait (by intro t'; simp [suspended, suspendsW]) ?_
    intro j; have := hn0 j
    unfold places; dsimp only
    rw [outc j _ rfl]; exact this

theorem inv_exec (keep : Bool) (ops : List (Op ν)) : Inv keep (exec keep ops) := by
  induction ops using snocInd with
  | nil =>
    constructor <;> simp [exec, content, Taken, suspended, continued, places, outcomes]
  | snoc ops op ih => rw [exec_snoc]; exact inv_step ih op

/-! ### Theorems -/

/-- **In order, none twice, none lost.** In every thread the coroutines are continued in the order in which they suspended, each at most once. -/
theorem C83_order (keep : Bool) (ops : List (Op ν)) (t : Nat) :
    ∃ rest, suspended t (exec keep ops).log = continued t (exec keep ops).log ++ rest :=
  ⟨_, (inv_exec keep ops).fifo t⟩

/-- Every `co_await` has at most one outcome. -/
theorem C83_once (keep : Bool) (ops : List (Op ν)) (k : Nat) : outcomes k (exec keep ops).log ≤ 1 := by
  have := (inv_exec keep ops).ids k
  unfold places at this
  split at this <;> omega

/-- **What they get.** Whatever a coroutine gets, the future has finished by then, and it is what the future finished with – unless another
coroutine has taken the result: then there is none, and asking for it is undefined behaviour. -/
theorem C83_outcome (keep : Bool) (ops : List (Op ν)) (pre : List (Ev ν)) (w : Who) (h : How) (o : Out ν) (post : List (Ev ν))
    (hl : (exec keep ops).log = pre ++ .got w h o :: post) : outcome pre o := (inv_exec keep ops).outs pre w h o post hl

/-- Undefined behaviour is somebody's getting nothing, and nothing else. -/
theorem C83_ub_iff (keep : Bool) (ops : List (Op ν)) : (exec keep ops).ub = true ↔ ∃ w h, .got w h .nothing ∈ (exec keep ops).log :=
  (inv_exec keep ops).ub

theorem content_mono {pre post : List (Ev ν)} {c : Stored ν} (h : content pre = some c) : content (pre ++ post) = some c := by
  unfold content at *
  rw [List.filterMap_append, List.head?_append, h]; rfl

theorem taken_mono {pre post : List (Ev ν)} (h : Taken pre) : Taken (pre ++ post) := by
  obtain ⟨w, h', v, h1, h2⟩ := h
  exact ⟨w, h', v, by simp [h1], h2⟩

theorem uses' (keep : Bool) : ∀ ops : List (Op ν), (∀ t u, .check t u ∈ ops → u = .result) →
    (∀ x, x ∈ (exec keep ops).asking ∨ x ∈ (exec keep ops).waiting ∨ x ∈ (exec keep ops).queue ∨ x ∈ (exec keep ops).blocked → x.u = .result) ∧
    (∀ w h o, .got w h o ∈ (exec keep ops).log → w.u = .result) := by
  intro ops
  induction ops using snocInd with
  | nil => intro _; simp [exec]
  | snoc ops op ih =>
    intro hn
    obtain ⟨i1, i2⟩ := ih (fun t u hm => hn t u (by simp [hm]))
    rw [exec_snoc]
    generalize exec keep ops = s at *
    have perf : ∀ (s' : State ν) w h, (∀ x, x ∈ s'.asking ∨ x ∈ s'.waiting ∨ x ∈ s'.queue ∨ x ∈ s'.blocked → x.u = .result) → s'.log = s.log → w.u = .result →
        (∀ x, x ∈ (s'.perform keep w h).asking ∨ x ∈ (s'.perform keep w h).waiting ∨ x ∈ (s'.perform keep w h).queue ∨ x ∈ (s'.perform keep w h).blocked → x.u = .result) ∧
        (∀ w' h' o, .got w' h' o ∈ (s'.perform keep w h).log → w'.u = .result) := by
      intro s' w h hx hl hw
      have aux : ∀ o', ∀ w' h' o, .got w' h' o ∈ s'.log ++ [.got w h o'] → w'.u = .result := by
        intro o' w' h' o hm
        rw [hl] at hm
        rcases List.mem_append.1 hm with hm | hm
        · exact i2 _ _ _ hm
        · simp at hm; rw [hm.1]; exact hw
      unfold State.perform
      split
      · rw [hw]; exact ⟨hx, aux _⟩
      · exact ⟨hx, aux _⟩
      · exact ⟨hx, aux _⟩
    have mem_pick : ∀ (p : Who → Bool) l w r, pick p l = some (w, r) → w ∈ l ∧ ∀ x ∈ r, x ∈ l := by
      intro p l
      induction l with
      | nil => intro w r h; cases h
      | cons y l ihl =>
        intro w r h
        unfold pick at h
        split at h
        · cases h; exact ⟨by simp, fun x hx => by simp [hx]⟩
        · obtain ⟨z, hz, he⟩ := Option.map_eq_some_iff.1 h
          obtain ⟨zw, zr⟩ := z
          simp only [Prod.mk.injEq] at he
          obtain ⟨rfl, rfl⟩ := he
          obtain ⟨h1, h2⟩ := ihl _ _ hz
          refine ⟨by simp [h1], fun x hx => ?_⟩
          simp at hx
          rcases hx with rfl | hx
          · simp
          · simp [h2 x hx]
    unfold step
    split
    · exact ⟨i1, i2⟩
    cases op with
    | check t u =>
      have hu := hn t u (by simp)
      subst hu
      dsimp only
      split
      · exact ⟨i1, i2⟩
      split
      · exact perf _ _ _ i1 rfl rfl
      split
      · refine ⟨?_, ?_⟩
        · intro x hx; simp at hx
          rcases hx with hx | hx | hx | hx | rfl
          · exact i1 x (.inl hx)
          · exact i1 x (.inr (.inl hx))
          · exact i1 x (.inr (.inr (.inl hx)))
          · exact i1 x (.inr (.inr (.inr hx)))
          · rfl
        · intro w h o hm; simp at hm; exact i2 w h o hm
      · refine ⟨?_, i2⟩
        intro x hx; simp at hx
        rcases hx with (hx | rfl) | hx
        · exact i1 x (.inl hx)
        · rfl
        · exact i1 x (.inr hx)
    | subscribe k =>
      dsimp only
      split
      · exact ⟨i1, i2⟩
      · rename_i w r hp
        obtain ⟨h1, h2⟩ := mem_pick _ _ _ _ hp
        split
        · refine ⟨?_, ?_⟩
          · intro x hx; simp at hx
            rcases hx with hx | hx | (hx | rfl) | hx
            · exact i1 x (.inl (h2 x hx))
            · exact i1 x (.inr (.inl hx))
            · exact i1 x (.inr (.inr (.inl hx)))
            · exact i1 x (.inl h1)
            · exact i1 x (.inr (.inr (.inr hx)))
          · intro w h o hm; simp at hm; exact i2 w h o hm
        · refine ⟨?_, ?_⟩
          · intro x hx; simp at hx
            rcases hx with hx | (hx | rfl) | hx | hx
            · exact i1 x (.inl (h2 x hx))
            · exact i1 x (.inr (.inl hx))
            · exact i1 x (.inl h1)
            · exact i1 x (.inr (.inr (.inl hx)))
            · exact i1 x (.inr (.inr (.inr hx)))
          · intro w h o hm; simp at hm; exact i2 w h o hm
    | loop t =>
      dsimp only
      split
      · exact ⟨i1, i2⟩
      split
      · exact ⟨i1, i2⟩
      · rename_i w r hp
        obtain ⟨h1, h2⟩ := mem_pick _ _ _ _ hp
        refine perf _ _ _ ?_ rfl (i1 w (.inr (.inr (.inl h1))))
        intro x hx; dsimp only at hx
        rcases hx with hx | hx | hx | hx
        · exact i1 x (.inl hx)
        · exact i1 x (.inr (.inl hx))
        · exact i1 x (.inr (.inr (.inl (h2 x hx))))
        · exact i1 x (.inr (.inr (.inr hx)))
    | unblock k =>
      dsimp only
      split
      · split
        · exact ⟨i1, i2⟩
        · rename_i w r hp
          obtain ⟨h1, h2⟩ := mem_pick _ _ _ _ hp
          refine perf _ _ _ ?_ rfl (i1 w (.inr (.inr (.inr h1))))
          intro x hx; dsimp only at hx
          rcases hx with hx | hx | hx | hx
          · exact i1 x (.inl hx)
          · exact i1 x (.inr (.inl hx))
          · exact i1 x (.inr (.inr (.inl hx)))
          · exact i1 x (.inr (.inr (.inr (h2 x hx))))
      · exact ⟨i1, i2⟩
    | finish c =>
      dsimp only
      split
      · exact ⟨i1, i2⟩
      · refine ⟨?_, ?_⟩
        · intro x hx; simp at hx
          rcases hx with hx | (hx | hx) | hx
          · exact i1 x (.inl hx)
          · exact i1 x (.inr (.inr (.inl hx)))
          · exact i1 x (.inr (.inl hx))
          · exact i1 x (.inr (.inr (.inr hx)))
        · intro w h o hm; simp at hm; exact i2 w h o hm
    | cancel =>
      refine ⟨i1, ?_⟩
      intro w h o hm; simp at hm; exact i2 w h o hm

theorem uses (keep : Bool) (ops : List (Op ν)) (hn : ∀ t u, .check t u ∈ ops → u = .result) (w : Who) (h : How) (o : Out ν)
    (hm : .got w h o ∈ (exec keep ops).log) : w.u = .result := (uses' keep ops hn).2 w h o hm

/-- **A future nobody takes the result of may be awaited by any number of coroutines in any number of threads**: all get the same value, or all
the same exception. -/
theorem C83_shared (keep : Bool) (ops : List (Op ν)) (hn : ∀ t u, .check t u ∈ ops → u = .result) (c : Stored ν)
    (hc : content (exec keep ops).log = some c) (w : Who) (h : How) (o : Out ν) (hg : .got w h o ∈ (exec keep ops).log) :
    o = match c with | .value v => .value v | .exception e => .throws e | .nothing => .nothing := by
  have hnt : ¬ Taken (exec keep ops).log := by
    rintro ⟨w, h, v, h1, h2⟩
    rw [uses keep ops hn w h _ h1] at h2; cases h2
  obtain ⟨pre, post, hl⟩ := List.append_of_mem hg
  have ho := C83_outcome keep ops pre w h o post hl
  have hnt' : ¬ Taken pre := fun h' => hnt (by rw [hl]; exact taken_mono h')
  unfold outcome at ho
  obtain ⟨c', hc'⟩ : ∃ c', content pre = c' := ⟨_, rfl⟩
  rw [hc'] at ho
  cases c' with
  | none => exact ho.elim
  | some c' =>
    have : content (exec keep ops).log = some c' := by rw [hl]; exact content_mono hc'
    rw [hc] at this; cases this
    cases c with
    | nothing => exact ho
    | exception e => exact ho
    | value v => exact (ho.resolve_right (fun h' => hnt' h'.1)).2

/-- **takeResult() takes the result away from all others** (found): after one coroutine has taken it, whoever asks for it – coroutines that have
been waiting longer, too – runs into undefined behaviour. -/
theorem C83_taken (keep : Bool) (ops : List (Op ν)) (pre mid post : List (Ev ν)) (w w' : Who) (h h' : How) (v : ν) (o : Out ν)
    (hl : (exec keep ops).log = pre ++ .got w h (.value v) :: mid ++ .got w' h' o :: post) (hu : w.u = .take) : o = .nothing := by
  have ho := C83_outcome keep ops (pre ++ .got w h (.value v) :: mid) w' h' o post hl
  have h1 := C83_outcome keep ops pre w h (.value v) (mid ++ .got w' h' o :: post) (by rw [hl]; simp)
  have ht : Taken (pre ++ .got w h (.value v) :: mid) := ⟨w, h, v, by simp, hu⟩
  unfold outcome at ho h1
  obtain ⟨c', hc'⟩ : ∃ c', content pre = c' := ⟨_, rfl⟩
  rw [hc'] at h1
  cases c' with
  | none => exact h1.elim
  | some c =>
    rw [content_mono hc'] at ho
    cases c with
    | nothing => cases h1
    | exception e => cases h1
    | value v' => exact (ho.resolve_left (fun hh => hh.1 ht)).2

/-- **Each event of the loop continues the coroutine that has waited longest**: after the future has finished, as long as nobody has taken the
result, an event loop continues the first coroutine of its thread that is suspended, if there is one and its thread is not blocked. -/
theorem C83_loop (keep : Bool) (ops : List (Op ν)) (t : Nat) (c : Stored ν) (hu : (exec keep ops).ub = false)
    (hc : content (exec keep ops).log = some c) (hn : ¬ Taken (exec keep ops).log) (hb : ∀ b ∈ (exec keep ops).blocked, b.t ≠ t) (rest : List Who)
    (hr : suspended t (exec keep ops).log = continued t (exec keep ops).log ++ rest) :
    (rest = [] → exec keep (ops ++ [.loop t]) = exec keep ops) ∧
    (∀ w r, rest = w :: r → ∃ o, (exec keep (ops ++ [.loop t])).log = (exec keep ops).log ++ [.got w .resumed o]) := by
  rw [exec_snoc]
  have hi := inv_exec keep ops
  generalize exec keep ops = s at *
  have hd : s.done = true := by
    rcases Bool.eq_false_or_eq_true s.done with h | h
    · exact h
    · rw [(hi.run h).2.2.1] at hc; cases hc
  have hw := hi.wait (hi.cont hd hn).2
  have hf := hi.fifo t
  rw [hr, hw, List.append_nil] at hf
  have hf := List.append_cancel_left hf
  have hnb : (s.blocked.any (fun b => b.t == t)) = false := by
    rw [List.any_eq_false]; intro b hm; simpa using hb b hm
  simp only [step, hu, hnb, Bool.false_eq_true, if_false]
  constructor
  · intro h0
    rw [h0] at hf
    rw [pick_none.2 hf.symm]
  · intro w r hwr
    rw [hwr] at hf
    obtain ⟨x, hx⟩ : ∃ x, pick (fun w => w.t == t) s.queue = x := ⟨_, rfl⟩
    cases x with
    | none => rw [pick_none.1 hx] at hf; cases hf
    | some x =>
      obtain ⟨w', r'⟩ := x
      have h2 := (pick_some hx).2.1
      rw [← hf] at h2
      cases h2
      rw [hx]
      dsimp only
      unfold State.perform
      dsimp only
      split
      · split <;> exact ⟨_, rfl⟩
      · exact ⟨_, rfl⟩
      · exact ⟨_, rfl⟩

/-- **Who does not suspend.** A `co_await` on a future that has finished (and whose result nobody has taken) gets its outcome at once, even
before coroutines that suspended earlier; on one that was canceled and still runs it blocks the thread; otherwise it will suspend. -/
theorem C83_check (keep : Bool) (ops : List (Op ν)) (t : Nat) (u : Use) (hu : (exec keep ops).ub = false) (hn : ¬ Taken (exec keep ops).log)
    (hb : ∀ b ∈ (exec keep ops).blocked, b.t ≠ t) :
    (content (exec keep ops).log ≠ none → ∃ k o, (exec keep (ops ++ [.check t u])).log = (exec keep ops).log ++ [.got ⟨k, t, u⟩ .atOnce o]) ∧
    (content (exec keep ops).log = none → .canceled ∈ (exec keep ops).log →
      ∃ k, (exec keep (ops ++ [.check t u])).log = (exec keep ops).log ++ [.blocks ⟨k, t, u⟩]) ∧
    (content (exec keep ops).log = none → .canceled ∉ (exec keep ops).log →
      ∃ k, (exec keep (ops ++ [.check t u, .subscribe k])).log = (exec keep ops).log ++ [.suspends ⟨k, t, u⟩]) := by
  have hcan : ∀ ops : List (Op ν), ¬ Taken (exec keep ops).log → ((exec keep ops).isCanceled = true ↔ .canceled ∈ (exec keep ops).log) := by
    intro ops
    induction ops using snocInd with
    | nil => intro _; simp [exec]
    | snoc ops op ih =>
      have hmono : Taken (exec keep ops).log → Taken (exec keep (ops ++ [op])).log := by
        intro ht
        have : ∃ l, (exec keep (ops ++ [op])).log = (exec keep ops).log ++ l := by
          rw [exec_snoc]
          unfold step State.perform
          repeat' split
          all_goals first | exact ⟨_, rfl⟩ | exact ⟨[], by simp⟩
        obtain ⟨l, hl⟩ := this
        rw [hl]; exact taken_mono ht
      intro hnt
      have ih := ih (fun h => hnt (hmono h))
      rw [exec_snoc] at hnt ⊢
      have hi := inv_exec keep ops
      generalize exec keep ops = s at *
      have perf : ∀ (s' : State ν) w h, s'.log = s.log → s'.isCanceled = s.isCanceled → ¬ Taken (s'.perform keep w h).log →
          ((s'.perform keep w h).isCanceled = true ↔ .canceled ∈ (s'.perform keep w h).log) := by
        intro s' w h hl hc hnt
        unfold State.perform at hnt ⊢
        split
        · rename_i v hv
          split
          · dsimp only; rw [hc, hl]; simp [ih]
          · rename_i hw
            rw [hv] at hnt; dsimp only at hnt; rw [hw] at hnt; dsimp only at hnt
            exact absurd ((taken_snoc _ _).2 (.inr ⟨w, h, v, rfl, hw⟩)) hnt
        · dsimp only; rw [hc, hl]; simp [ih]
        · dsimp only; rw [hc, hl]; simp [ih]
      revert hnt
      unfold step
      split
      · intro _; exact ih
      cases op with
      | check t u =>
        dsimp only
        split
        · intro _; exact ih
        split
        · exact perf _ _ _ rfl rfl
        split
        · intro _; simp [ih]
        · intro _; exact ih
      | subscribe k =>
        dsimp only
        split
        · intro _; exact ih
        · split <;> (intro _; simp [ih])
      | loop t =>
        dsimp only
        split
        · intro _; exact ih
        split
        · intro _; exact ih
        · exact perf _ _ _ rfl rfl
      | unblock k =>
        dsimp only
        split
        · split
          · intro _; exact ih
          · exact perf _ _ _ rfl rfl
        · intro _; exact ih
      | finish c =>
        dsimp only
        split
        · intro _; exact ih
        · intro _; simp [ih]
      | cancel => intro _; simp
  have hcn := hcan ops hn
  have hi := inv_exec keep ops
  have e2 : ∀ a b : Op ν, exec keep (ops ++ [a, b]) = step keep (step keep (exec keep ops) a) b := by intro a b; simp [exec]
  simp only [exec_snoc, e2]
  generalize exec keep ops = s at *
  have hnb : (s.blocked.any (fun b => b.t == t)) = false := by
    rw [List.any_eq_false]; intro b hm; simpa using hb b hm
  refine ⟨?_, ?_, ?_⟩
  · intro hc
    have hd : s.done = true := by
      rcases Bool.eq_false_or_eq_true s.done with h | h
      · exact h
      · exact absurd (hi.run h).2.2.1 hc
    have hf := (hi.cont hd hn).2
    simp only [step, hu, hnb, hf, Bool.false_eq_true, if_false, if_true]
    unfold State.perform
    dsimp only
    split
    · split <;> exact ⟨_, _, rfl⟩
    · exact ⟨_, _, rfl⟩
    · exact ⟨_, _, rfl⟩
  · intro hc hm
    have hd : s.done = false := by
      rcases Bool.eq_false_or_eq_true s.done with h | h
      · have := hi.fin h; rw [hc] at this; cases this
      · exact h
    have hf := (hi.run hd).1
    have := hcn.2 hm
    simp only [step, hu, hnb, hf, this, Bool.false_eq_true, if_false, if_true]
    exact ⟨_, rfl⟩
  · intro hc hm
    have hd : s.done = false := by
      rcases Bool.eq_false_or_eq_true s.done with h | h
      · have := hi.fin h; rw [hc] at this; cases this
      · exact h
    have hf := (hi.run hd).1
    have hcf : s.isCanceled = false := by
      rcases Bool.eq_false_or_eq_true s.isCanceled with h | h
      · exact absurd (hcn.1 h) hm
      · exact h
    refine ⟨s.n, ?_⟩
    have hna : pick (fun w => w.k == s.n) (s.asking ++ [⟨s.n, t, u⟩]) ≠ none := by
      rw [Ne, pick_none]; simp
    have hask : s.asking.filter (fun w => w.k == s.n) = [] := by
      have := hi.ids s.n
      unfold places at this
      simp at this
      rw [List.filter_eq_nil_iff]
      intro a ha hk
      have h0 : (s.asking.map Who.k).count s.n = 0 := by omega
      rw [List.count_eq_zero] at h0
      exact h0 (by rw [← (by simpa using hk : a.k = s.n)]; exact List.mem_map_of_mem ha)
    obtain ⟨x, hx⟩ := Option.ne_none_iff_exists'.1 hna
    obtain ⟨w', r'⟩ := x
    have h2 := (pick_some hx).2.1
    rw [List.filter_append, hask] at h2
    simp at h2
    have hw := h2.1
    subst hw
    simp only [step, hu, hnb, hf, hcf, hx, Bool.false_eq_true, if_false]

/-- A suspended coroutine is continued by the event loop of its own thread, and by nothing else. -/
theorem C83_by_own_loop (keep : Bool) (ops : List (Op ν)) (op : Op ν) (w : Who) (o : Out ν)
    (h : (exec keep (ops ++ [op])).log = (exec keep ops).log ++ [.got w .resumed o]) : op = .loop w.t := by
  rw [exec_snoc] at h
  generalize exec keep ops = s at *
  have perf : ∀ (s' : State ν) w' h', (s'.perform keep w' h').log = s.log ++ [.got w .resumed o] → s'.log = s.log → w' = w ∧ h' = .resumed := by
    intro s' w' h' he hl
    unfold State.perform at he
    split at he
    · split at he <;> (dsimp only at he; rw [hl] at he; simp at he; exact ⟨he.1, he.2.1⟩)
    · dsimp only at he; rw [hl] at he; simp at he; exact ⟨he.1, he.2.1⟩
    · dsimp only at he; rw [hl] at he; simp at he; exact ⟨he.1, he.2.1⟩
  unfold step at h
  split at h
  · simp at h
  cases op with
  | check t u =>
    dsimp only at h
    split at h
    · simp at h
    split at h
    · have := (perf _ _ _ h rfl).2; cases this
    split at h <;> simp at h
  | subscribe k =>
    dsimp only at h
    split at h
    · simp at h
    · split at h <;> simp at h
  | loop t =>
    dsimp only at h
    split at h
    · simp at h
    split at h
    · simp at h
    · rename_i w' r hp
      have := (perf _ _ _ h rfl).1
      rw [← this, show w'.t = t by simpa using (pick_some hp).1]
  | unblock k =>
    dsimp only at h
    split at h
    · split at h
      · simp at h
      · have := (perf _ _ _ h rfl).2; cases this
    · simp at h
  | finish c =>
    dsimp only at h
    split at h <;> simp at h
  | cancel => simp at h

theorem subscribes_log (keep : Bool) (s : State ν) (op : Op ν) : ∃ l, (step keep s op).log = s.log ++ l := by
  unfold step State.perform
  repeat' split
  all_goals first | exact ⟨_, rfl⟩ | exact ⟨[], by simp⟩

theorem late_exec (ops : List (Op ν)) : ∀ pre w post, (exec false ops).log = pre ++ .suspends w :: post → Taken pre → w ∈ (exec false ops).waiting := by
  induction ops using snocInd with
  | nil => intro pre w post h; simp [exec] at h
  | snoc ops op ih =>
    intro pre w post h ht
    have hi := inv_exec false ops
    rw [exec_snoc] at h ⊢
    generalize exec false ops = s at *
    have keepW : ∀ s' : State ν, s'.log = s.log → (∀ x ∈ s.waiting, x ∈ s'.waiting) → s'.log = pre ++ .suspends w :: post → w ∈ s'.waiting := by
      intro s' hl hw he; rw [hl] at he; exact hw _ (ih _ _ _ he ht)
    have add : ∀ (s' : State ν) e, s'.log = s.log ++ [e] → (∀ x ∈ s.waiting, x ∈ s'.waiting) → (∀ x, e ≠ .suspends x) → s'.log = pre ++ .suspends w :: post → w ∈ s'.waiting := by
      intro s' e hl hw hne he
      rw [hl] at he
      rcases snoc_split he with ⟨_, _, he'⟩ | ⟨q', _, he'⟩
      · exact absurd he'.symm (hne w)
      · exact hw _ (ih _ _ _ he' ht)
    have perf : ∀ (s' : State ν) w' h', s'.log = s.log → s'.waiting = s.waiting → (s'.perform false w' h').log = pre ++ .suspends w :: post → w ∈ (s'.perform false w' h').waiting := by
      intro s' w' h' hl hw
      unfold State.perform
      split
      · split
        · exact add _ _ (by dsimp only; rw [hl]) (by dsimp only; rw [hw]; exact fun _ h => h) (by simp)
        · exact add _ _ (by dsimp only; rw [hl]) (by dsimp only; rw [hw]; exact fun _ h => h) (by simp)
      · exact add _ _ (by dsimp only; rw [hl]) (by dsimp only; rw [hw]; exact fun _ h => h) (by simp)
      · exact add _ _ (by dsimp only; rw [hl]) (by dsimp only; rw [hw]; exact fun _ h => h) (by simp)
    revert h
    unfold step
    split
    · exact keepW _ rfl (fun _ h => h)
    cases op with
    | check t u =>
      dsimp only
      split
      · exact keepW _ rfl (fun _ h => h)
      split
      · exact perf _ _ _ rfl rfl
      split
      · exact add _ _ rfl (fun _ h => h) (by simp)
      · exact keepW _ rfl (fun _ h => h)
    | subscribe k =>
      dsimp only
      split
      · exact keepW _ rfl (fun _ h => h)
      · rename_i w' r hp
        split
        · rename_i hf
          intro he
          rcases snoc_split he with ⟨_, h1, he'⟩ | ⟨q', _, he'⟩
          · subst h1
            rw [(hi.gone ht).2.2.1] at hf; cases hf
          · exact ih _ _ _ he' ht
        · intro he
          rcases snoc_split he with ⟨_, h1, he'⟩ | ⟨q', _, he'⟩
          · cases he'; simp
          · have := ih _ _ _ he' ht; simp [this]
    | loop t =>
      dsimp only
      split
      · exact keepW _ rfl (fun _ h => h)
      split
      · exact keepW _ rfl (fun _ h => h)
      · exact perf _ _ _ rfl rfl
    | unblock k =>
      dsimp only
      split
      · split
        · exact keepW _ rfl (fun _ h => h)
        · exact perf _ _ _ rfl rfl
      · exact keepW _ rfl (fun _ h => h)
    | finish c =>
      dsimp only
      split
      · exact keepW _ rfl (fun _ h => h)
      · rename_i hd
        intro he
        exfalso
        rcases snoc_split he with ⟨_, _, he'⟩ | ⟨q', _, he'⟩
        · cases he'
        · have := (hi.gone (by rw [he']; exact taken_mono ht)).2.1
          rw [this] at hd; exact hd rfl
    | cancel => exact add _ _ rfl (fun _ h => h) (by simp)

/-- Found: with Qt 6's `takeResult()`, which resets the future, a coroutine that awaits it (or any copy of it) afterwards waits for ever. -/
theorem C83_after_take_hangs (ops : List (Op ν)) (pre post : List (Ev ν)) (w : Who) (hl : (exec false ops).log = pre ++ .suspends w :: post)
    (ht : Taken pre) (h : How) (o : Out ν) (hw : .got w h o ∈ (exec false ops).log) : False := by
  have hm := late_exec ops pre w post hl ht
  have hi := (inv_exec false ops).ids w.k
  have h1 : 0 < ((exec false ops).waiting.map Who.k).count w.k := List.count_pos_iff.2 (List.mem_map_of_mem hm)
  have h2 : 0 < outcomes w.k (exec false ops).log := by
    unfold outcomes
    refine List.count_pos_iff.2 (List.mem_map_of_mem ?_)
    exact List.mem_filterMap.2 ⟨_, hw, rfl⟩
  unfold places at hi
  split at hi <;> omega

theorem loop_blocked (keep : Bool) (s : State ν) (t : Nat) : (step keep s (.loop t)).blocked = s.blocked := by
  have perf : ∀ (s' : State ν) w h, (s'.perform keep w h).blocked = s'.blocked := by
    intro s' w h
    unfold State.perform
    split
    · split <;> rfl
    · rfl
    · rfl
  simp only [step]
  split
  · rfl
  split
  · rfl
  split
  · rfl
  · rw [perf]

/-- **Nobody is forgotten.** Once the future has finished with a value or an exception and nobody takes the result, an event loop whose thread is
not blocked continues all suspended coroutines of its thread. -/
theorem C83_drains (keep : Bool) (t : Nat) (c : Stored ν) (hne : c ≠ .nothing) : ∀ (n : Nat) (ops : List (Op ν)), (∀ t u, .check t u ∈ ops → u = .result) →
    content (exec keep ops).log = some c → (∀ b ∈ (exec keep ops).blocked, b.t ≠ t) →
    (suspended t (exec keep ops).log).length = (continued t (exec keep ops).log).length + n →
    suspended t (exec keep (ops ++ List.replicate n (.loop t))).log = suspended t (exec keep ops).log ∧
    continued t (exec keep (ops ++ List.replicate n (.loop t))).log = suspended t (exec keep ops).log := by
  intro n
  induction n with
  | zero =>
    intro ops hn hc hb hlen
    obtain ⟨rest, hr⟩ := C83_order keep ops t
    have : rest = [] := by
      have := congrArg List.length hr
      rw [List.length_append] at this
      exact List.length_eq_zero_iff.1 (by omega)
    rw [this, List.append_nil] at hr
    simp [hr]
  | succ n ih =>
    intro ops hn hc hb hlen
    obtain ⟨rest, hr⟩ := C83_order keep ops t
    have hsh := C83_shared keep ops hn c hc
    have hu : (exec keep ops).ub = false := by
      rcases Bool.eq_false_or_eq_true (exec keep ops).ub with h | h
      · obtain ⟨w, h', hm⟩ := (C83_ub_iff keep ops).1 h
        have := hsh w h' _ hm
        cases c <;> simp at this hne
      · exact h
    have hnt : ¬ Taken (exec keep ops).log ∧ True := by
      refine ⟨?_, trivial⟩
      intro ht
      have hi := inv_exec keep ops
      -- a future whose result was taken: nobody could have asked for it
      obtain ⟨w, h, v, h1, h2⟩ := ht
      exact absurd h2 (by
        have := uses keep ops hn w h _ h1
        rw [this]; simp)
    cases rest with
    | nil =>
      have := congrArg List.length hr
      rw [List.length_append] at this
      simp at this; omega
    | cons w r =>
      obtain ⟨o, ho⟩ := (C83_loop keep ops t c hu hc hnt.1 hb (w :: r) hr).2 w r rfl
      have hwt : w.t = t := by
        have : w ∈ suspended t (exec keep ops).log := by rw [hr]; simp
        unfold suspended at this
        simpa using (List.mem_filter.1 this).2
      have hs' : suspended t (exec keep (ops ++ [.loop t])).log = suspended t (exec keep ops).log := by
        rw [ho, suspended_snoc]; simp [suspendsW]
      have hc' : continued t (exec keep (ops ++ [.loop t])).log = continued t (exec keep ops).log ++ [w] := by
        rw [ho, continued_snoc]; simp [resumedW, hwt]
      have hb' : ∀ b ∈ (exec keep (ops ++ [.loop t])).blocked, b.t ≠ t := by
        rw [exec_snoc]
        rw [loop_blocked]
        exact hb
      have := ih (ops ++ [.loop t]) (by intro t' u hm; simp at hm; exact hn t' u hm)
        (by rw [ho, content_snoc, hc]; rfl) hb' (by rw [hs', hc', hlen]; simp; omega)
      rw [hs'] at this
      rw [show ops ++ List.replicate (n + 1) (.loop t) = (ops ++ [.loop t]) ++ List.replicate n (.loop t) by rw [List.replicate_succ]; simp]
      exact this

/-- Found: a late `takeResult()` overtakes. Coroutine 0 waits for the result, the future finishes with 42, coroutine 1 takes the result without
suspending before the event loop gets to coroutine 0, which then runs into undefined behaviour. -/
theorem C83_found_overtakes (keep : Bool) :
    (exec keep [.check 0 .result, .subscribe 0, .finish (.value 42), .check 0 .take, .loop 0]).log =
      [.suspends ⟨0, 0, .result⟩, .finished (.value 42), .got ⟨1, 0, .take⟩ .atOnce (.value 42), .got ⟨0, 0, .result⟩ .resumed .nothing] ∧
    (exec keep [.check 0 .result, .subscribe 0, .finish (.value 42), .check 0 .take, .loop 0]).ub = true := by
  cases keep <;> decide

example : (exec false [.check 0 .result, .check 1 .result, .subscribe 1, .subscribe 0, .check 1 .result, .finish (.value 42), .subscribe 2, .loop 1, .loop 0, .loop 1, .check 5 .result]).log =
    [.suspends ⟨1, 1, .result⟩, .suspends ⟨0, 0, .result⟩, .finished (.value 42), .suspends ⟨2, 1, .result⟩, .got ⟨1, 1, .result⟩ .resumed (.value 42),
     .got ⟨0, 0, .result⟩ .resumed (.value 42), .got ⟨2, 1, .result⟩ .resumed (.value 42), .got ⟨3, 5, .result⟩ .atOnce (.value 42)] := by decide

end QCoro.Shared
