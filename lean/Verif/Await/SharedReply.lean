import Verif.Util.Basic
/-
Several coroutines awaiting one `QNetworkReply` (`co_await reply`, `qcoro/network/qcoronetworkreply.cpp:39-81`), in the thread of the reply: property C83.

Every `co_await` has its own receiver object (`:39-55`), to which `finished` posts an event (`:70-72`): the events survive the reply. Simplifications:
one thread (a coroutine of another one: C46_await_other_thread_lost); a suspended coroutine stays suspended till it is resumed (nothing in QCoro destroys it).
-/
set_option linter.unusedSimpArgs false
set_option linter.unusedVariables false
namespace QCoro.SharedReply
open QCoro

/-- A posted event: resume coroutine `k` (`qcoronetworkreply.cpp:70-72`), or the deferred delete of the reply (Qt). -/
inductive Item | resume (k : Nat) | del
deriving DecidableEq, Repr

/-- What happens, as the application sees it. `got k now p`: coroutine `k` gets the reply (`p`) or a null pointer (not `p`), without having suspended (`now`) or
when it is resumed. Observations, no counterpart in /repo. -/
inductive Ev
  | suspends (k : Nat)
  | got (k : Nat) (now p : Bool)
  | finished
  | destroyed
deriving DecidableEq, Repr

/-- The reply, the coroutines connected to its `finished` signal, the posted events. -/
structure State where
  alive : Bool := true
  fin : Bool := false
  n : Nat := 0
  waiting : List Nat := []
  queue : List Item := []
  log : List Ev := []

/-- What can happen next. -/
inductive Op
  | await          -- another coroutine executes co_await reply (or a QPointer to it)
  | finish         -- the reply finishes
  | destroy        -- delete reply
  | deleteLater    -- reply->deleteLater()
  | loop           -- the event loop handles the next posted event
  | requeue        -- a deferred delete is put off (Qt: it was posted from an outer event loop)
deriving DecidableEq, Repr

/-- The destructor of the reply (Qt; the receivers are those of `qcoronetworkreply.cpp:39-55`): its connections and the events posted to it are gone, those posted to the receivers of the coroutines are not. -/
def State.die (s : State) : State :=
  { s with alive := false, waiting := [], queue := s.queue.filter (fun i => i ≠ .del), log := s.log ++ [.destroyed] }

/-- One step (`qcoro/network/qcoronetworkreply.cpp:64-81`; lines at each case). -/
def step (s : State) (op : Op) : State :=
  match op with
  | .await =>           -- `:64-66`, `:68-76`
    if !s.alive || s.fin then { s with n := s.n + 1, log := s.log ++ [.got s.n true s.alive] }
    else { s with n := s.n + 1, waiting := s.waiting ++ [s.n], log := s.log ++ [.suspends s.n] }
  | .finish =>          -- Qt emits `finished` once
    if s.alive && !s.fin then { s with fin := true, queue := s.queue ++ s.waiting.map .resume, waiting := [], log := s.log ++ [.finished] }
    else s
  | .destroy => if s.alive then s.die else s
  | .deleteLater => if s.alive then { s with queue := s.queue ++ [.del] } else s
  | .loop =>
    match s.queue with
    | [] => s
    | .resume k :: r => { s with queue := r, log := s.log ++ [.got k false s.alive] }   -- `:71`, `:79-81`
    | .del :: r => ({ s with queue := r } : State).die
  | .requeue =>
    match s.queue with
    | .del :: r => { s with queue := r ++ [.del] }
    | _ => s

/-- Everything that happens to a running reply. Bookkeeping of the model, no counterpart in /repo. -/
def exec (ops : List Op) : State := ops.foldl step {}

theorem exec_snoc (ops : List Op) (op : Op) : exec (ops ++ [op]) = step (exec ops) op := by simp [exec]

/-! ### Specification -/

/-- The coroutine an event suspends. -/
def suspendsK : Ev → Option Nat | .suspends k => some k | _ => none
/-- The coroutine an event resumes. -/
def resumedK : Ev → Option Nat | .got k false _ => some k | _ => none
/-- The coroutine that gets an answer. -/
def gotK : Ev → Option Nat | .got k _ _ => some k | _ => none

/-- The coroutines that suspended, in order. -/
def suspended (l : List Ev) : List Nat := l.filterMap suspendsK
/-- The coroutines that were resumed, in order. -/
def continued (l : List Ev) : List Nat := l.filterMap resumedK
/-- How often coroutine `k` got an answer. -/
def answers (k : Nat) (l : List Ev) : Nat := (l.filterMap gotK).count k

/-! ### Proofs -/

/-- The coroutines for which an event is posted. -/
def resumes (q : List Item) : List Nat := q.filterMap (fun | .resume k => some k | .del => none)

theorem resumes_append (a b : List Item) : resumes (a ++ b) = resumes a ++ resumes b := by simp [resumes]
theorem resumes_map (l : List Nat) : resumes (l.map .resume) = l := by
  induction l with
  | nil => rfl
  | cons a l ih => simp [resumes] at ih ⊢; exact ih
theorem resumes_filter (q : List Item) : resumes (q.filter (fun i => i ≠ .del)) = resumes q := by
  induction q with
  | nil => rfl
  | cons a q ih => cases a <;> simp [resumes] at ih ⊢ <;> exact ih

/-- Proof invariant. -/
structure Inv (s : State) : Prop where
  alive : s.alive = true ↔ Ev.destroyed ∉ s.log
  fin : s.fin = true ↔ Ev.finished ∈ s.log
  run : s.fin = false → continued s.log = [] ∧ resumes s.queue = [] ∧ (s.alive = true → suspended s.log = s.waiting)
  wait : s.fin = true → s.waiting = []
  dead : s.alive = false → s.waiting = []
  fifo : s.fin = true → suspended s.log = continued s.log ++ resumes s.queue
  ids : ∀ j, (suspended s.log).count j ≤ 1 ∧ answers j s.log + (resumes s.queue).count j + s.waiting.count j ≤ (if j < s.n then 1 else 0)
  idlt : ∀ j ∈ suspended s.log, j < s.n
  outs : ∀ pre k now p post, s.log = pre ++ .got k now p :: post → (p = true ↔ Ev.destroyed ∉ pre) ∧ (now = true ↔ (k ∉ suspended pre))
    ∧ (now = false → Ev.finished ∈ pre) ∧ (now = true → Ev.finished ∈ pre ∨ Ev.destroyed ∈ pre)

theorem snoc_split {α : Type} {l : List α} {y x : α} {p q : List α} (h : l ++ [y] = p ++ x :: q) :
    (q = [] ∧ p = l ∧ x = y) ∨ ∃ q', q = q' ++ [y] ∧ l = p ++ x :: q' := by
  rcases List.eq_nil_or_concat q with rfl | ⟨q', z, rfl⟩
  · obtain ⟨h1, h2⟩ := List.append_inj' h rfl
    simp at h2; exact .inl ⟨rfl, h1.symm, h2.symm⟩
  · rw [show p ++ x :: q'.concat z = (p ++ x :: q') ++ [z] by simp] at h
    obtain ⟨h1, h2⟩ := List.append_inj' h rfl
    simp at h2; subst h2; exact .inr ⟨q', by simp, h1⟩

theorem suspended_snoc (l : List Ev) (e : Ev) : suspended (l ++ [e]) = suspended l ++ (suspendsK e).toList := by
  unfold suspended; rw [List.filterMap_append]; cases e <;> simp [suspendsK, List.filterMap_cons]
theorem continued_snoc (l : List Ev) (e : Ev) : continued (l ++ [e]) = continued l ++ (resumedK e).toList := by
  unfold continued; rw [List.filterMap_append]; cases h : resumedK e <;> simp [List.filterMap_cons, h]
theorem answers_snoc (k : Nat) (l : List Ev) (e : Ev) : answers k (l ++ [e]) = answers k l + ((gotK e).toList).count k := by
  unfold answers; rw [List.filterMap_append, List.count_append]; cases e <;> simp [gotK, List.filterMap_cons]

theorem outs_other {l : List Ev} {e : Ev} (P : List Ev → Nat → Bool → Bool → Prop) (he : ∀ k now p, e ≠ .got k now p)
    (h : ∀ pre k now p post, l = pre ++ .got k now p :: post → P pre k now p) :
    ∀ pre k now p post, l ++ [e] = pre ++ .got k now p :: post → P pre k now p := by
  intro pre k now p post hl
  rcases snoc_split hl with ⟨_, _, h'⟩ | ⟨q', _, h'⟩
  · exact absurd h'.symm (he k now p)
  · exact h _ _ _ _ _ h'

theorem outs_got {l : List Ev} {k : Nat} {now p : Bool} (P : List Ev → Nat → Bool → Bool → Prop) (h0 : P l k now p)
    (h : ∀ pre k now p post, l = pre ++ .got k now p :: post → P pre k now p) :
    ∀ pre k' now' p' post, l ++ [.got k now p] = pre ++ .got k' now' p' :: post → P pre k' now' p' := by
  intro pre k' now' p' post hl
  rcases snoc_split hl with ⟨_, h1, h'⟩ | ⟨q', _, h'⟩
  · cases h'; subst h1; exact h0
  · exact h _ _ _ _ _ h'

theorem die_inv {s0 s : State} (hi : Inv s0) (ha : s0.alive = true) (e1 : s.fin = s0.fin) (e2 : s.n = s0.n) (e3 : s.log = s0.log)
    (e4 : resumes s.queue = resumes s0.queue) : Inv s.die := by
  unfold State.die
  have hs : suspended (s0.log ++ [.destroyed]) = suspended s0.log := by rw [suspended_snoc]; simp [suspendsK]
  have hc : continued (s0.log ++ [.destroyed]) = continued s0.log := by rw [continued_snoc]; simp [resumedK]
  have hk : ∀ j, answers j (s0.log ++ [.destroyed]) = answers j s0.log := by intro j; rw [answers_snoc]; simp [gotK]
  constructor <;> dsimp only <;> (try rw [e3]) <;> (try rw [resumes_filter, e4]) <;> (try rw [e1]) <;> (try rw [hs]) <;> (try rw [hc])
  · simp
  · rw [hi.fin]; simp
  · intro hf; exact ⟨(hi.run hf).1, (hi.run hf).2.1, by simp⟩
  · intro _; trivial
  · intro _; trivial
  · intro hf; exact hi.fifo hf
  · intro j; rw [hk, e2]; have := hi.ids j; refine ⟨this.1, ?_⟩; have := this.2; simp only [List.count_nil]; omega
  · intro j hj; rw [e2]; exact hi.idlt j hj
  · exact outs_other (fun pre k now p => (p = true ↔ Ev.destroyed ∉ pre) ∧ (now = true ↔ (k ∉ suspended pre))
    ∧ (now = false → Ev.finished ∈ pre) ∧ (now = true → Ev.finished ∈ pre ∨ Ev.destroyed ∈ pre)) (by simp) hi.outs

theorem inv_step {s : State} (hi : Inv s) (op : Op) : Inv (step s op) := by
  have hP := hi.outs
  cases op with
  | await =>
    simp only [step]
    split
    · rename_i hc
      have hs : ∀ b, suspended (s.log ++ [.got s.n true b]) = suspended s.log := by intro b; rw [suspended_snoc]; simp [suspendsK]
      have hcn : ∀ b, continued (s.log ++ [.got s.n true b]) = continued s.log := by intro b; rw [continued_snoc]; simp [resumedK]
      constructor <;> dsimp only <;> (try rw [hs]) <;> (try rw [hcn])
      · rw [hi.alive]; simp
      · rw [hi.fin]; simp
      · exact hi.run
      · exact hi.wait
      · exact hi.dead
      · exact hi.fifo
      · intro j
        rw [answers_snoc]
        have h1 := hi.ids j
        have h2 := hi.ids s.n
        refine ⟨h1.1, ?_⟩
        simp [gotK, List.count_cons] at h2 ⊢
        by_cases hj : s.n = j
        · subst hj; simp; omega
        · have := h1.2
          rw [if_neg hj]
          by_cases hlt : j < s.n
          · rw [if_pos hlt] at this; rw [if_pos (by omega)]; omega
          · rw [if_neg hlt] at this; omega
      · intro j hj; have := hi.idlt j hj; omega
      · refine outs_got (fun pre k now p => (p = true ↔ Ev.destroyed ∉ pre) ∧ (now = true ↔ (k ∉ suspended pre))
          ∧ (now = false → Ev.finished ∈ pre) ∧ (now = true → Ev.finished ∈ pre ∨ Ev.destroyed ∈ pre)) ⟨hi.alive, ?_, by simp, ?_⟩ hi.outs
        · simp; intro hm; have := hi.idlt _ hm; omega
        · intro _
          rcases Bool.eq_false_or_eq_true s.alive with h | h
          · rw [h] at hc; simp at hc; exact .inl (hi.fin.1 hc)
          · right
            apply Classical.byContradiction
            intro hn; rw [hi.alive.2 hn] at h; cases h
    · rename_i hc
      have ha : s.alive = true := by revert hc; cases s.alive <;> simp
      have hf : s.fin = false := by revert hc; cases s.fin <;> simp
      have hs : suspended (s.log ++ [.suspends s.n]) = suspended s.log ++ [s.n] := by rw [suspended_snoc]; simp [suspendsK]
      have hcn : continued (s.log ++ [.suspends s.n]) = continued s.log := by rw [continued_snoc]; simp [resumedK]
      constructor <;> dsimp only <;> (try rw [hs]) <;> (try rw [hcn])
      · rw [hi.alive]; simp
      · rw [hi.fin]; simp
      · intro _; exact ⟨(hi.run hf).1, (hi.run hf).2.1, fun _ => by rw [(hi.run hf).2.2 ha]⟩
      · intro h; rw [hf] at h; cases h
      · intro h; rw [ha] at h; cases h
      · intro h; rw [hf] at h; cases h
      · intro j
        rw [answers_snoc]
        have h1 := hi.ids j
        have h2 := (hi.ids s.n).2
        have h3 : (suspended s.log).count s.n = 0 := List.count_eq_zero.2 (fun hm => by have := hi.idlt _ hm; omega)
        simp [gotK, List.count_append, List.count_cons] at h2 ⊢
        by_cases hj : s.n = j
        · subst hj; simp; omega
        · have := h1.2
          rw [if_neg hj]
          refine ⟨by have := h1.1; omega, ?_⟩
          by_cases hlt : j < s.n
          · rw [if_pos hlt] at this; rw [if_pos (by omega)]; omega
          · rw [if_neg hlt] at this; omega
      · intro j hj; simp at hj; rcases hj with hj | hj
        · have := hi.idlt j hj; omega
        · omega
      · exact outs_other (fun pre k now p => (p = true ↔ Ev.destroyed ∉ pre) ∧ (now = true ↔ (k ∉ suspended pre))
          ∧ (now = false → Ev.finished ∈ pre) ∧ (now = true → Ev.finished ∈ pre ∨ Ev.destroyed ∈ pre)) (by simp) hi.outs
  | finish =>
    simp only [step]
    split
    · rename_i hc
      have ha : s.alive = true := by revert hc; cases s.alive <;> simp
      have hf : s.fin = false := by revert hc; cases s.fin <;> simp
      have hs : suspended (s.log ++ [.finished]) = suspended s.log := by rw [suspended_snoc]; simp [suspendsK]
      have hcn : continued (s.log ++ [.finished]) = continued s.log := by rw [continued_snoc]; simp [resumedK]
      constructor <;> dsimp only <;> (try rw [hs]) <;> (try rw [hcn]) <;> (try rw [resumes_append, resumes_map])
      · rw [hi.alive]; simp
      · simp
      · intro h; cases h
      · intro _; trivial
      · intro _; trivial
      · intro _; rw [(hi.run hf).1, (hi.run hf).2.1, (hi.run hf).2.2 ha]; rfl
      · intro j
        rw [answers_snoc]
        have h1 := hi.ids j
        refine ⟨h1.1, ?_⟩
        have := h1.2
        rw [List.count_append]; simp [gotK]; omega
      · exact hi.idlt
      · exact outs_other (fun pre k now p => (p = true ↔ Ev.destroyed ∉ pre) ∧ (now = true ↔ (k ∉ suspended pre))
          ∧ (now = false → Ev.finished ∈ pre) ∧ (now = true → Ev.finished ∈ pre ∨ Ev.destroyed ∈ pre)) (by simp) hi.outs
    · exact hi
  | destroy =>
    simp only [step]
    split
    · rename_i ha; exact die_inv hi ha rfl rfl rfl rfl
    · exact hi
  | deleteLater =>
    simp only [step]
    split
    · have hr : resumes (s.queue ++ [.del]) = resumes s.queue := by rw [resumes_append]; simp [resumes]
      exact ⟨hi.alive, hi.fin, by dsimp only; rw [hr]; exact hi.run, hi.wait, hi.dead, by dsimp only; rw [hr]; exact hi.fifo,
        by dsimp only; rw [hr]; exact hi.ids, hi.idlt, hi.outs⟩
    · exact hi
  | loop =>
    obtain ⟨q, hq⟩ : ∃ q, s.queue = q := ⟨_, rfl⟩
    simp only [step]
    rw [hq]
    cases q with
    | nil => exact hi
    | cons i r =>
      cases i with
      | del =>
        have hr : resumes r = resumes s.queue := by rw [hq]; simp [resumes]
        rcases Bool.eq_false_or_eq_true s.alive with ha | ha
        · exact die_inv hi ha rfl rfl rfl hr
        · -- cannot happen: no deferred delete is left when the reply is gone; the invariant holds anyway
          dsimp only
          unfold State.die
          have hs : suspended (s.log ++ [.destroyed]) = suspended s.log := by rw [suspended_snoc]; simp [suspendsK]
          have hcn : continued (s.log ++ [.destroyed]) = continued s.log := by rw [continued_snoc]; simp [resumedK]
          constructor <;> dsimp only <;> (try rw [resumes_filter, hr]) <;> (try rw [hs]) <;> (try rw [hcn])
          · simp
          · rw [hi.fin]; simp
          · intro hf; exact ⟨(hi.run hf).1, (hi.run hf).2.1, by simp⟩
          · intro _; trivial
          · intro _; trivial
          · intro hf; exact hi.fifo hf
          · intro j; rw [answers_snoc]; have := hi.ids j; refine ⟨this.1, ?_⟩; have := this.2; simp [gotK]; omega
          · exact hi.idlt
          · exact outs_other (fun pre k now p => (p = true ↔ Ev.destroyed ∉ pre) ∧ (now = true ↔ (k ∉ suspended pre))
              ∧ (now = false → Ev.finished ∈ pre) ∧ (now = true → Ev.finished ∈ pre ∨ Ev.destroyed ∈ pre)) (by simp) hi.outs
      | resume k =>
        have hr : resumes s.queue = k :: resumes r := by rw [hq]; simp [resumes]
        have hf : s.fin = true := by
          rcases Bool.eq_false_or_eq_true s.fin with h | h
          · exact h
          · have := (hi.run h).2.1; rw [hr] at this; cases this
        have hs : ∀ b, suspended (s.log ++ [.got k false b]) = suspended s.log := by intro b; rw [suspended_snoc]; simp [suspendsK]
        have hcn : ∀ b, continued (s.log ++ [.got k false b]) = continued s.log ++ [k] := by intro b; rw [continued_snoc]; simp [resumedK]
        have hff := hi.fifo hf
        rw [hr] at hff
        constructor <;> dsimp only <;> (try rw [hs]) <;> (try rw [hcn])
        · rw [hi.alive]; simp
        · rw [hi.fin]; simp
        · intro h; rw [hf] at h; cases h
        · exact hi.wait
        · exact hi.dead
        · intro _; rw [hff]; simp
        · intro j
          rw [answers_snoc]
          have h1 := hi.ids j
          refine ⟨h1.1, ?_⟩
          have := h1.2
          rw [hr, List.count_cons] at this
          simp [gotK, List.count_cons] at this ⊢; omega
        · exact hi.idlt
        · refine outs_got (fun pre k now p => (p = true ↔ Ev.destroyed ∉ pre) ∧ (now = true ↔ (k ∉ suspended pre))
            ∧ (now = false → Ev.finished ∈ pre) ∧ (now = true → Ev.finished ∈ pre ∨ Ev.destroyed ∈ pre)) ⟨hi.alive, ?_, fun _ => hi.fin.1 hf, by simp⟩ hi.outs
          rw [hff]; simp
  | requeue =>
    simp only [step]
    split
    · rename_i r hq
      have hr : resumes (r ++ [.del]) = resumes s.queue := by rw [resumes_append, hq]; simp [resumes]
      exact ⟨hi.alive, hi.fin, by dsimp only; rw [hr]; exact hi.run, hi.wait, hi.dead, by dsimp only; rw [hr]; exact hi.fifo,
        by dsimp only; rw [hr]; exact hi.ids, hi.idlt, hi.outs⟩
    · exact hi

theorem inv_exec (ops : List Op) : Inv (exec ops) := by
  induction ops using snocInd with
  | nil =>
    constructor <;> simp [exec, suspended, continued, resumes, answers]
  | snoc ops op ih => rw [exec_snoc]; exact inv_step ih op

/-! ### Theorems -/

/-- Every `co_await` on the reply is answered at most once, and suspends at most once. -/
theorem C83_reply_once (ops : List Op) (k : Nat) : answers k (exec ops).log ≤ 1 ∧ (suspended (exec ops).log).count k ≤ 1 := by
  have := (inv_exec ops).ids k
  refine ⟨?_, this.1⟩
  have := this.2
  split at this <;> omega

/-- **The answers.** A coroutine gets the reply iff the reply still exists at that time, otherwise a null pointer; those that suspended get their answer after
the reply has finished, those that did not suspend found it finished or gone. -/
theorem C83_reply_answer (ops : List Op) (pre post : List Ev) (k : Nat) (now p : Bool) (h : (exec ops).log = pre ++ .got k now p :: post) :
    (p = true ↔ Ev.destroyed ∉ pre) ∧ (now = true ↔ k ∉ suspended pre) ∧ (now = false → Ev.finished ∈ pre) ∧
    (now = true → Ev.finished ∈ pre ∨ Ev.destroyed ∈ pre) := (inv_exec ops).outs pre k now p post h

/-- **First come, first served**: the suspended coroutines are resumed in the order in which they suspended. -/
theorem C83_reply_order (ops : List Op) : ∃ rest, suspended (exec ops).log = continued (exec ops).log ++ rest := by
  have hi := inv_exec ops
  rcases Bool.eq_false_or_eq_true (exec ops).fin with h | h
  · exact ⟨_, hi.fifo h⟩
  · rw [(hi.run h).1]; exact ⟨_, rfl⟩

/-- **Who suspends**: exactly a `co_await` on a reply that exists and has not finished. -/
theorem C83_reply_suspends (ops : List Op) :
    (Ev.destroyed ∉ (exec ops).log → Ev.finished ∉ (exec ops).log → ∃ k, (exec (ops ++ [.await])).log = (exec ops).log ++ [.suspends k]) ∧
    (Ev.destroyed ∈ (exec ops).log ∨ Ev.finished ∈ (exec ops).log →
      ∃ k p, (exec (ops ++ [.await])).log = (exec ops).log ++ [.got k true p]) := by
  have hi := inv_exec ops
  rw [exec_snoc]
  generalize exec ops = s at *
  constructor
  · intro h1 h2
    have ha := hi.alive.2 h1
    have hf : s.fin = false := by
      rcases Bool.eq_false_or_eq_true s.fin with h | h
      · exact absurd (hi.fin.1 h) h2
      · exact h
    simp only [step, ha, hf, Bool.not_true, Bool.or_self, Bool.false_eq_true, if_false]
    exact ⟨_, rfl⟩
  · intro h
    have hc : (!s.alive || s.fin) = true := by
      rcases h with h | h
      · have : s.alive = false := by
          rcases Bool.eq_false_or_eq_true s.alive with h' | h'
          · exact absurd h (hi.alive.1 h')
          · exact h'
        simp [this]
      · simp [hi.fin.2 h]
    simp only [step]
    rw [if_pos hc]
    exact ⟨_, _, rfl⟩

theorem loop_progress (s : State) : s.queue = [] ∨ (step s .loop).queue.length < s.queue.length ∧ (step s .loop).fin = s.fin ∧
    suspended (step s .loop).log = suspended s.log := by
  obtain ⟨q, hq⟩ : ∃ q, s.queue = q := ⟨_, rfl⟩
  cases q with
  | nil => exact .inl hq
  | cons i r =>
    right
    simp only [step]
    rw [hq]
    cases i with
    | resume k => refine ⟨by simp, rfl, ?_⟩; dsimp only; rw [suspended_snoc]; simp [suspendsK]
    | del =>
      unfold State.die
      refine ⟨?_, rfl, ?_⟩
      · have := List.length_filter_le (fun i => i ≠ Item.del) r
        simp only [List.length_cons] at this ⊢; omega
      · dsimp only; rw [suspended_snoc]; simp [suspendsK]

/-- **Nobody is forgotten.** Once the reply has finished, the event loop resumes all coroutines that wait for it, even when the reply is destroyed meanwhile. -/
theorem C83_reply_drains (ops : List Op) (h : Ev.finished ∈ (exec ops).log) :
    ∃ n, continued (exec (ops ++ List.replicate n .loop)).log = suspended (exec ops).log := by
  have key : ∀ m ops, (exec ops).fin = true → (exec ops).queue.length ≤ m →
      ∃ n, continued (exec (ops ++ List.replicate n .loop)).log = suspended (exec ops).log := by
    intro m
    induction m with
    | zero =>
      intro ops hf hl
      refine ⟨0, ?_⟩
      have hq : (exec ops).queue = [] := List.length_eq_zero_iff.1 (by omega)
      have := (inv_exec ops).fifo hf
      rw [hq] at this
      simp [resumes] at this ⊢; exact this.symm
    | succ m ih =>
      intro ops hf hl
      rcases loop_progress (exec ops) with hq | ⟨h1, h2, h3⟩
      · exact ih ops hf (by rw [hq]; simp)
      · rw [← exec_snoc] at h1 h2 h3
        obtain ⟨n, hn⟩ := ih (ops ++ [.loop]) (by rw [h2]; exact hf) (by omega)
        refine ⟨n + 1, ?_⟩
        rw [show ops ++ List.replicate (n + 1) .loop = (ops ++ [.loop]) ++ List.replicate n .loop by rw [List.replicate_succ]; simp, hn, h3]
  exact key _ ops ((inv_exec ops).fin.2 h) (Nat.le_refl _)

/-- Found: if the reply is destroyed before it finishes, none of the coroutines that wait for it ever continues. -/
theorem C83_reply_destroyed_hangs (ops : List Op) (pre post : List Ev) (h : (exec ops).log = pre ++ .destroyed :: post) (hf : Ev.finished ∉ pre) :
    continued (exec ops).log = [] := by
  have key : ∀ ops : List Op, ∀ pre post, (exec ops).log = pre ++ Ev.destroyed :: post → Ev.finished ∉ pre → Ev.finished ∉ (exec ops).log := by
    intro ops
    induction ops using snocInd with
    | nil => intro pre post h; simp [exec] at h
    | snoc ops op ih =>
      intro pre post h hf
      have hi := inv_exec ops
      rw [exec_snoc] at h ⊢
      generalize exec ops = s at *
      have add : ∀ e, e ≠ Ev.finished → s.log ++ [e] = pre ++ Ev.destroyed :: post → Ev.finished ∉ s.log ++ [e] := by
        intro e hne he
        rcases snoc_split he with ⟨_, h1, h2⟩ | ⟨q', _, h1⟩
        · subst h1; simp [hf, hne.symm]
        · have := ih _ _ h1 hf; simp [this, hne.symm]
      have die : ∀ s' : State, s'.log = s.log → s'.die.log = pre ++ Ev.destroyed :: post → Ev.finished ∉ s'.die.log := by
        intro s' hl; unfold State.die; dsimp only; rw [hl]; exact add _ (by simp)
      revert h
      cases op with
      | await =>
        simp only [step]; split
        · exact add _ (by simp)
        · exact add _ (by simp)
      | finish =>
        simp only [step]; split
        · rename_i hc
          intro h
          have ha : s.alive = true := by revert hc; cases s.alive <;> simp
          exfalso
          rcases snoc_split h with ⟨_, _, h2⟩ | ⟨q', _, h1⟩
          · cases h2
          · exact hi.alive.1 ha (by rw [h1]; simp)
        · exact fun h => ih _ _ h hf
      | destroy =>
        simp only [step]; split
        · exact die _ rfl
        · exact fun h => ih _ _ h hf
      | deleteLater => simp only [step]; split <;> exact fun h => ih _ _ h hf
      | loop =>
        obtain ⟨q, hq⟩ : ∃ q, s.queue = q := ⟨_, rfl⟩
        simp only [step]
        rw [hq]
        cases q with
        | nil => exact fun h => ih _ _ h hf
        | cons i r =>
          cases i with
          | resume k => exact add _ (by simp)
          | del => exact die _ rfl
      | requeue => simp only [step]; split <;> exact fun h => ih _ _ h hf
  have hi := inv_exec ops
  have hn := key ops pre post h hf
  rcases Bool.eq_false_or_eq_true (exec ops).fin with h' | h'
  · exact absurd (hi.fin.1 h') hn
  · exact (hi.run h').1

/-- All resumptions posted come before the deferred deletes, and there is none left once the reply is gone. -/
def Sorted (s : State) : Prop := ∃ ks m, s.queue = ks.map .resume ++ List.replicate m .del ∧ (s.alive = false → ks = []) ∧ (s.fin = false → m = 0 ∧ s.alive = true)

/-- **The usual idiom is safe**: as long as the reply is only deleted by `deleteLater()` called after it has finished – say, by the first coroutine that gets it –
every coroutine that has waited for it gets it, none a null pointer. -/
theorem C83_reply_deleteLater (ops : List Op) (h1 : Op.destroy ∉ ops) (h2 : ∀ a b, ops = a ++ .deleteLater :: b → Op.finish ∈ a) (k : Nat) (p : Bool)
    (hg : Ev.got k false p ∈ (exec ops).log) : p = true := by
  have key : ∀ ops : List Op, Op.destroy ∉ ops → (∀ a b, ops = a ++ .deleteLater :: b → Op.finish ∈ a) →
      Sorted (exec ops) ∧ ((Op.finish ∈ ops) → (exec ops).fin = true) ∧ ∀ k p, Ev.got k false p ∈ (exec ops).log → p = true := by
    intro ops
    induction ops using snocInd with
    | nil => intro _ _; exact ⟨⟨[], 0, rfl, fun _ => rfl, fun _ => ⟨rfl, rfl⟩⟩, by simp, by simp [exec]⟩
    | snoc ops op ih =>
      intro h1 h2
      have hi := inv_exec ops
      obtain ⟨⟨ks, m, hq, ha, hm⟩, hf, hp⟩ := ih (fun hh => h1 (by simp [hh])) (fun a b hab => h2 a (b ++ [op]) (by rw [hab]; simp))
      have hlast : op = .deleteLater → (exec ops).fin = true := fun ho => hf (h2 ops [] (by rw [ho]))
      have hnd : op ≠ .destroy := fun ho => h1 (by simp [ho])
      have hfin' : Op.finish ∈ ops ++ [op] → Op.finish ∈ ops ∨ op = .finish := by simp; intro h; rcases h with h | h; exact .inl h; exact .inr h.symm
      rw [exec_snoc]
      generalize exec ops = s at *
      cases op with
      | destroy => exact absurd rfl hnd
      | await =>
        have hfm : Op.finish ∈ ops ++ [.await] → s.fin = true := fun h => (hfin' h).elim hf (by simp)
        simp only [step]
        split
        · refine ⟨⟨ks, m, hq, ha, hm⟩, hfm, ?_⟩
          intro k p; dsimp only; simp; exact hp k p
        · refine ⟨⟨ks, m, hq, ha, hm⟩, hfm, ?_⟩
          intro k p; dsimp only; simp; exact hp k p
      | finish =>
        simp only [step]
        split
        · rename_i hc
          have hal : s.alive = true := by revert hc; cases s.alive <;> simp
          have hfi : s.fin = false := by revert hc; cases s.fin <;> simp
          refine ⟨⟨ks ++ s.waiting, 0, ?_, ?_, by simp⟩, fun _ => rfl, ?_⟩
          · dsimp only; rw [hq, (hm hfi).1]; simp
          · intro h; dsimp only at h; rw [hal] at h; cases h
          · intro k p; dsimp only; simp; exact hp k p
        · rename_i hc
          refine ⟨⟨ks, m, hq, ha, hm⟩, ?_, hp⟩
          intro _
          rcases Bool.eq_false_or_eq_true s.fin with h | h
          · exact h
          · exact absurd (by rw [(hm h).2, h]; rfl) hc
      | deleteLater =>
        have hfi := hlast rfl
        simp only [step]
        split
        · refine ⟨⟨ks, m + 1, ?_, ha, fun h => ?_⟩, fun _ => hfi, hp⟩
          · dsimp only; rw [hq, List.replicate_succ']; simp
          · dsimp only at h; rw [hfi] at h; cases h
        · exact ⟨⟨ks, m, hq, ha, hm⟩, fun _ => hfi, hp⟩
      | loop =>
        have hfm : Op.finish ∈ ops ++ [.loop] → s.fin = true := fun h => (hfin' h).elim hf (by simp)
        simp only [step]
        cases ks with
        | nil =>
          cases m with
          | zero =>
            simp at hq; rw [hq]
            exact ⟨⟨[], 0, by rw [hq]; rfl, ha, hm⟩, hfm, hp⟩
          | succ m =>
            rw [List.replicate_succ] at hq; simp at hq
            rw [hq]
            unfold State.die
            refine ⟨⟨[], 0, by simp, fun _ => rfl, fun h => ?_⟩, hfm, ?_⟩
            · dsimp only at h; have := (hm h).1; omega
            · intro k p; dsimp only; simp; exact hp k p
        | cons k0 ks =>
          have hal : s.alive = true := by
            rcases Bool.eq_false_or_eq_true s.alive with h | h
            · exact h
            · have := ha h; cases this
          simp only [List.map_cons, List.cons_append] at hq
          rw [hq]
          refine ⟨⟨ks, m, rfl, ?_, hm⟩, hfm, ?_⟩
          · intro h; dsimp only at h; rw [hal] at h; cases h
          · intro k p; dsimp only; simp
            rintro (h | ⟨_, h⟩)
            · exact hp k p h
            · rw [h]; exact hal
      | requeue =>
        have hfm : Op.finish ∈ ops ++ [.requeue] → s.fin = true := fun h => (hfin' h).elim hf (by simp)
        simp only [step]
        split
        · rename_i r hr
          cases ks with
          | nil =>
            cases m with
            | zero => rw [hr] at hq; simp at hq
            | succ m =>
              rw [hr, List.replicate_succ] at hq; simp at hq
              refine ⟨⟨[], m + 1, ?_, ha, hm⟩, hfm, hp⟩
              dsimp only; rw [hq, List.replicate_succ']; simp
          | cons k0 ks => rw [hr] at hq; simp at hq
        · exact ⟨⟨ks, m, hq, ha, hm⟩, hfm, hp⟩
  exact (key ops h1 h2).2.2 k p hg

/-- Three coroutines wait; the first one that gets the reply calls `deleteLater()`; a fourth comes late. -/
example : (exec [.await, .await, .await, .finish, .loop, .deleteLater, .await, .loop, .loop, .loop, .await]).log =
    [.suspends 0, .suspends 1, .suspends 2, .finished, .got 0 false true, .got 3 true true, .got 1 false true, .got 2 false true, .destroyed, .got 4 true false] := by
  decide

/-- Found: with `delete reply` instead, the other coroutines get a null pointer. -/
theorem C83_reply_delete_null : (exec [.await, .await, .finish, .loop, .destroy, .loop]).log =
    [.suspends 0, .suspends 1, .finished, .got 0 false true, .destroyed, .got 1 false false] := by decide

/-- The hypotheses of C83_reply_destroyed_hangs are met. -/
example : (exec [.await, .await, .deleteLater, .loop, .finish, .loop, .await]).log = [.suspends 0, .suspends 1, .destroyed, .got 2 true false] := by decide

end QCoro.SharedReply
