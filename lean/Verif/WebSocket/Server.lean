import Verif.Util.Basic
/-
C54: `qCoro(webSocketServer).nextPendingConnection(timeout)` (`qcoro/websockets/qcorowebsocketserver.cpp`).

One server, any number of calls, from any number of coroutines of the server's thread; connections, closing, timers and the event loop
in any order.  Sockets are numbered by the environment.  The inner `co_await qCoro(&listener, ready, timeout)` is the signal await of
`Verif.Signal`: queued delivery, the first delivered emission or the timer decides, and the rest of the queued emissions is discarded
with the awaiter.
-/
set_option linter.unusedSimpArgs false
namespace QCoro.WsServer

/-- Bookkeeping of the model, no counterpart in /repo. -/
inductive Ev
  | conn (c : Nat)                     -- a client connected
  | closed                             -- the server was closed (its pending connections are closed with it)
  | listen                             -- the server (again) listens
  | called (i : Nat) (t : Int) (now : Nat)   -- call number i of nextPendingConnection(t)
  | suspended (i : Nat)                -- it has to wait
  | ret (i : Nat) (r : Option Nat) (now : Nat)  -- it returns the socket, or nullptr
  | lost (c : Nat)                     -- the socket was taken off the server and nobody was given it
  | rejected (c : Nat)                 -- the socket was pending when the server was closed
deriving DecidableEq, Repr

/-- A call suspended at `qcoro/websockets/qcorowebsocketserver.cpp:48-50`. -/
structure Wait where
  id : Nat
  due : Option Nat       -- deadline
deriving DecidableEq, Repr

/-- Its timer is due (`qcoro/core/qcorosignal.h:111-120`). -/
def Wait.dueBy (w : Wait) (now : Nat) : Bool := match w.due with | some d => d ≤ now | none => false

/-- The server, its suspended calls and the listeners' connections (`qcoro/websockets/qcorowebsocketserver.cpp:15-51`). -/
structure State where
  listening : Bool := true
  pending : List Nat := []              -- the server's queue
  waits : List Wait := []               -- suspended calls
  fns : List Nat := []                  -- functors connected to newConnection (`:22-24`), by call; never disconnected
  posted : List (Nat × Option Nat) := []   -- queued deliveries of ready(), by call
  now : Nat := 0
  calls : Nat := 0
  log : List Ev := []
  ub : Bool := false                    -- a destroyed listener's `this` was used

/-- One functor of `newConnection` (`:22-24`): `ready(server->nextPendingConnection())`, where an empty queue gives nullptr; the
captured listener is gone when its call has returned. -/
def State.functor (s : State) (i : Nat) : State :=
  if s.ub then s
  else if s.waits.any (·.id = i) then
    { s with pending := s.pending.tail, posted := s.posted ++ [(i, s.pending.head?)] }
  else { s with ub := true }

/-- The call `i` continues with `r`, returns it, and its listener and awaiter are destroyed.
(`qcoro/websockets/qcorowebsocketserver.cpp:48-50`). -/
def State.finish (s : State) (i : Nat) (r : Option Nat) : State :=
  { s with
    waits := s.waits.filter (·.id ≠ i)
    posted := s.posted.filter (·.1 ≠ i)
    log := s.log ++ [.ret i r s.now] ++ (s.posted.filterMap (fun p => if p.1 = i then p.2.map Ev.lost else none)) }

/-- Models the environment (application, event loop, operating system) rather than code of /repo. -/
inductive Op
  | call (t : Int)     -- a coroutine calls nextPendingConnection(t)
  | newConn (c : Nat)  -- a client connects; the server emits newConnection
  | close              -- the server is closed
  | listen             -- the server starts to listen
  | deliver            -- the event loop delivers the next queued event
  | time (d : Nat)
  | fire (i : Nat)     -- the event loop notices that the timer of call i is due
deriving DecidableEq

/-- Lines of `qcoro/websockets/qcorowebsocketserver.cpp` are cited at each case. -/
def step (s : State) (op : Op) : State :=
  if s.ub then s else
  match op with
  | .call t =>   -- `:37-51`
    let l := s.log ++ [.called s.calls t s.now]
    if s.listening = false then { s with calls := s.calls + 1, log := l ++ [.ret s.calls none s.now] }
    else match s.pending with
      | c :: rest => { s with calls := s.calls + 1, pending := rest, log := l ++ [.ret s.calls (some c) s.now] }
      | [] => { s with calls := s.calls + 1, waits := s.waits ++ [⟨s.calls, if t > -1 then some (s.now + t.toNat) else none⟩], fns := s.fns ++ [s.calls], log := l ++ [.suspended s.calls] }
  | .newConn c => s.fns.foldl State.functor { s with pending := s.pending ++ [c], log := s.log ++ [.conn c] }
  | .close =>    -- QWebSocketServer::close: pending connections are closed, then `closed` is emitted; slot `:19-21` (connected with context)
    { s with listening := false, pending := [], posted := s.posted ++ s.waits.map (fun w => (w.id, none)),
             log := s.log ++ s.pending.map .rejected ++ [.closed] }
  | .listen => { s with listening := true, log := s.log ++ [.listen] }
  | .deliver =>
    match s.posted with
    | [] => s
    | (i, r) :: rest => ({ s with posted := rest } : State).finish i r
  | .time d => { s with now := s.now + d }
  | .fire i =>   -- the awaiter's timeout: nullopt, `value_or(nullptr)` (`:50`)
    if s.waits.any (fun w => w.id = i && w.dueBy s.now) then s.finish i none else s

/-- Bookkeeping of the model, no counterpart in /repo. -/
def exec (ops : List Op) : State := ops.foldl step {}

theorem exec_snoc (ops : List Op) (op : Op) : exec (ops ++ [op]) = step (exec ops) op := by simp [exec]

/-! ### Vocabulary -/

/-- Specification vocabulary, no counterpart in /repo. -/
def isConn (c : Nat) : Ev → Bool | .conn d => c = d | _ => false
/-- Specification vocabulary, no counterpart in /repo. -/
def isRet (c : Nat) : Ev → Bool | .ret _ (some d) _ => c = d | _ => false
/-- Specification vocabulary, no counterpart in /repo. -/
def isLost (c : Nat) : Ev → Bool | .lost d => c = d | _ => false
/-- Specification vocabulary, no counterpart in /repo. -/
def isRejected (c : Nat) : Ev → Bool | .rejected d => c = d | _ => false
/-- Calls that have returned. Specification vocabulary, no counterpart in /repo. -/
def retId : Ev → Option Nat | .ret i _ _ => some i | _ => none
/-- Specification vocabulary, no counterpart in /repo. -/
def rets (l : List Ev) : List Nat := l.filterMap retId
/-- The sockets in order of arrival, and in the order in which they are returned.
Specification vocabulary, no counterpart in /repo. -/
def arrival : Ev → Option Nat | .conn c => some c | _ => none
/-- Specification vocabulary, no counterpart in /repo. -/
def arrivals (l : List Ev) : List Nat := l.filterMap arrival
/-- Specification vocabulary, no counterpart in /repo. -/
def retSock : Ev → Option Nat | .ret _ r _ => r | _ => none
/-- Specification vocabulary, no counterpart in /repo. -/
def returned (l : List Ev) : List Nat := l.filterMap retSock
/-- Specification vocabulary, no counterpart in /repo. -/
def isCall (i : Nat) : Ev → Bool | .called j _ _ => i = j | _ => false
/-- Does the server listen after this history? Specification vocabulary, no counterpart in /repo. -/
def listens (l : List Ev) : Bool := l.foldl (fun b e => match e with | .closed => false | .listen => true | _ => b) true

/-! ### Conservation of connections -/

/-- Specification vocabulary, no counterpart in /repo. -/
def Cons (s : State) : Prop :=
  ∀ c, s.log.countP (isConn c) =
    s.pending.count c + s.posted.countP (fun p => p.2 = some c) + s.log.countP (isRet c) + s.log.countP (isLost c) + s.log.countP (isRejected c)

theorem cons_functor {s : State} (h : Cons s) (i : Nat) : Cons (s.functor i) := by
  unfold State.functor
  split
  · exact h
  · split
    · intro c
      have := h c
      simp only
      rw [this, List.countP_append]
      cases e : s.pending with
      | nil => simp
      | cons d rest =>
        simp only [List.head?_cons, List.tail_cons, List.count_cons, List.countP_cons, List.countP_nil]
        by_cases hd : d = c
        · subst hd; simp; omega
        · simp [hd]; 
    · exact h

theorem cons_fold (l : List Nat) {s : State} (h : Cons s) : Cons (l.foldl State.functor s) := by
  induction l generalizing s with
  | nil => exact h
  | cons i l ih => exact ih (cons_functor h i)

theorem lost_count (c i : Nat) (l : List (Nat × Option Nat)) :
    l.countP (fun p => p.2 = some c) = (l.filter (·.1 ≠ i)).countP (fun p => p.2 = some c) +
      (l.filterMap (fun p => if p.1 = i then p.2.map Ev.lost else none)).countP (isLost c) := by
  induction l with
  | nil => rfl
  | cons p l ih =>
    obtain ⟨j, r⟩ := p
    by_cases hj : j = i
    · subst hj
      cases r with
      | none => simp at ih ⊢; exact ih
      | some d =>
        simp only [List.countP_cons, ih]
        by_cases hd : d = c
        · subst hd; simp [isLost]; omega
        · simp [isLost, hd, Ne.symm hd]
    · simp [hj, List.countP_cons] at ih ⊢; omega

theorem lost_other (i : Nat) (f : Ev → Bool) (hf : ∀ d, f (.lost d) = false) (l : List (Nat × Option Nat)) :
    (l.filterMap (fun p => if p.1 = i then p.2.map Ev.lost else none)).countP f = 0 := by
  rw [List.countP_eq_zero]
  intro e he
  obtain ⟨p, _, hp⟩ := List.mem_filterMap.1 he
  split at hp
  · cases h : p.2 with
    | none => rw [h] at hp; cases hp
    | some d => rw [h] at hp; simp at hp; subst hp; simp [hf]
  · cases hp

theorem cons_step {s : State} (h : Cons s) (op : Op) : Cons (step s op) := by
  unfold step
  split
  · exact h
  cases op with
  | call t =>
    dsimp only; split
    · intro c; have := h c; simpa [List.countP_append, isConn, isRet, isLost, isRejected] using this
    · cases e : s.pending with
      | nil => intro c; have := h c; rw [e] at this; simpa [List.countP_append, isConn, isRet, isLost, isRejected] using this
      | cons d rest =>
        intro c; have := h c
        rw [e, List.count_cons] at this
        by_cases hd : d = c
        · subst hd; simp [List.countP_append, isConn, isRet, isLost, isRejected] at this ⊢; omega
        · simp [List.countP_append, isConn, isRet, isLost, isRejected, hd, Ne.symm hd] at this ⊢; omega
  | newConn c =>
    apply cons_fold
    intro d; have := h d
    by_cases hd : d = c
    · subst hd; simp [List.countP_append, List.count_append, isConn, isRet, isLost, isRejected] at this ⊢; omega
    · simp [List.countP_append, List.count_append, List.count_singleton, isConn, isRet, isLost, isRejected, hd, Ne.symm hd] at this ⊢; omega
  | close =>
    intro c; have := h c
    have e1 : (s.pending.map Ev.rejected).countP (isRejected c) = s.pending.count c := by
      rw [List.countP_map, List.count_eq_countP]
      congr 1; funext x
      by_cases hx : c = x
      · subst hx; simp [isRejected]
      · have : ¬ x = c := fun h => hx h.symm
        simp [isRejected, hx, this]
    have e2 : ∀ f : Ev → Bool, (∀ d, f (.rejected d) = false) → (s.pending.map Ev.rejected).countP f = 0 := by
      intro f hf; rw [List.countP_map, List.countP_eq_zero]; intro x _; simp [hf]
    have e3 : (s.waits.map (fun w => (w.id, (none : Option Nat)))).countP (fun p => p.2 = some c) = 0 := by
      rw [List.countP_map, List.countP_eq_zero]; intro x _; simp
    simp only [List.countP_append, e1, e3, List.count_nil, e2 (isConn c) (fun _ => rfl), e2 (isRet c) (fun _ => rfl), e2 (isLost c) (fun _ => rfl)]
    simp [isConn, isRet, isLost, isRejected] at this ⊢; omega
  | listen => intro c; have := h c; simpa [List.countP_append, isConn, isRet, isLost, isRejected] using this
  | deliver =>
    dsimp only
    cases e : s.posted with
    | nil => exact h
    | cons p rest =>
      obtain ⟨i, r⟩ := p
      intro c; have := h c
      rw [e, List.countP_cons, lost_count c i rest] at this
      unfold State.finish
      simp only [List.countP_append, lost_other i (isConn c) (fun _ => rfl), lost_other i (isRet c) (fun _ => rfl), lost_other i (isRejected c) (fun _ => rfl)]
      cases r with
      | none => simp [isConn, isRet, isLost, isRejected] at this ⊢; omega
      | some d =>
        by_cases hd : d = c
        · subst hd; simp [isConn, isRet, isLost, isRejected] at this ⊢; omega
        · simp [isConn, isRet, isLost, isRejected, hd, Ne.symm hd] at this ⊢; omega
  | time d => exact h
  | fire i =>
    dsimp only; split
    · intro c; have := h c
      rw [lost_count c i s.posted] at this
      unfold State.finish
      simp only [List.countP_append, lost_other i (isConn c) (fun _ => rfl), lost_other i (isRet c) (fun _ => rfl), lost_other i (isRejected c) (fun _ => rfl)]
      simp [isConn, isRet, isLost, isRejected] at this ⊢; omega
    · exact h

/-- Every connection is accounted for, in every history (also up to undefined behaviour): it is pending, on its way to a call, was
returned by exactly one call, was closed with the server, or was lost. -/
theorem C54_conservation (ops : List Op) (c : Nat) : let s := exec ops
    s.log.countP (isConn c) = s.pending.count c + s.posted.countP (fun p => p.2 = some c) + s.log.countP (isRet c) +
      s.log.countP (isLost c) + s.log.countP (isRejected c) := by
  have : Cons (exec ops) := by
    induction ops using snocInd with
    | nil => intro c; rfl
    | snoc ops op ih => rw [exec_snoc]; exact cons_step ih op
  exact this c

/-! ### Who returns what, when and why -/

/-- The call `i` is in the log, and after it `Q`. Specification vocabulary, no counterpart in /repo. -/
def Since (l : List Ev) (i : Nat) (Q : Int → Nat → List Ev → List Ev → Prop) : Prop := ∃ p t t0 q, l = p ++ .called i t t0 :: q ∧ Q t t0 p q

/-- A connection arrived during the call, while another call was waiting too. Specification vocabulary, no counterpart in /repo. -/
def Taken (i : Nat) (p q : List Ev) (t : Int) (t0 : Nat) : Prop :=
  ∃ q1 c q2 j t' t0', q = q1 ++ .conn c :: q2 ∧ j ≠ i ∧ .called j t' t0' ∈ p ++ .called i t t0 :: q1 ∧ j ∉ rets (p ++ .called i t t0 :: q1)

/-- Why a queued `ready(nullptr)` was emitted. Specification vocabulary, no counterpart in /repo. -/
def NullCause (l : List Ev) (i : Nat) : Prop := Since l i (fun t t0 p q => .closed ∈ q ∨ Taken i p q t t0)

/-- Specification vocabulary, no counterpart in /repo. -/
def due (t : Int) (t0 : Nat) : Option Nat := if t > -1 then some (t0 + t.toNat) else none

/-- Proof invariant, no counterpart in /repo. -/
structure Inv (s : State) : Prop where
  lst : s.ub = false → s.listening = listens s.log
  ids : ∀ i ∈ s.fns, i < s.calls
  fnd : s.fns.Nodup
  wfn : ∀ w ∈ s.waits, w.id ∈ s.fns
  wnd : (s.waits.map (·.id)).Nodup
  post : ∀ p ∈ s.posted, ∃ w ∈ s.waits, w.id = p.1
  wcall : ∀ w ∈ s.waits, Since s.log w.id (fun t t0 _ _ => w.due = due t t0)
  wret : ∀ w ∈ s.waits, w.id ∉ rets s.log
  rnd : (rets s.log).Nodup
  rlt : ∀ i ∈ rets s.log, i < s.calls
  clt : ∀ i t t0, .called i t t0 ∈ s.log → i < s.calls
  pnull : ∀ i, (i, none) ∈ s.posted → NullCause s.log i
  pend : s.ub = false → s.waits ≠ [] → s.pending = []
  fnc : ∀ i ∈ s.fns, i ∈ rets s.log ∨ ∃ w ∈ s.waits, w.id = i
  susp : ∀ i, .suspended i ∈ s.log → i ∈ s.fns

theorem rets_append (l m : List Ev) : rets (l ++ m) = rets l ++ rets m := by simp [rets]

theorem since_append {l : List Ev} {i : Nat} {Q : Int → Nat → List Ev → List Ev → Prop} (m : List Ev) (h : Since l i Q) (hm : ∀ t t0 p q, Q t t0 p q → Q t t0 p (q ++ m)) : Since (l ++ m) i Q := by
  obtain ⟨p, t, t0, q, e, hq⟩ := h
  exact ⟨p, t, t0, q ++ m, by simp [e], hm _ _ _ _ hq⟩

theorem null_append {l : List Ev} {i : Nat} (m : List Ev) (h : NullCause l i) : NullCause (l ++ m) i := by
  apply since_append m h
  rintro t t0 p q (h | ⟨q1, c, q2, j, t', t0', e, h1, h2, h3⟩)
  · left; simp [h]
  · right; exact ⟨q1, c, q2 ++ m, j, t', t0', by simp [e], h1, h2, h3⟩

theorem listens_append (l m : List Ev) (h : ∀ e ∈ m, e ≠ .closed ∧ e ≠ .listen) : listens (l ++ m) = listens l := by
  induction m using snocInd with
  | nil => simp
  | snoc m e ih =>
    rw [← List.append_assoc]
    have hs : ∀ (l : List Ev) (e : Ev), listens (l ++ [e]) = (match e with | .closed => false | .listen => true | _ => listens l) := by
      intro l e; unfold listens; rw [List.foldl_append]; rfl
    rw [hs, ih (fun x hx => h x (by simp [hx]))]
    have := h e (by simp)
    cases e <;> simp_all

/-- The loop over the functors: what it leaves alone, and what it posts. -/
theorem fold_functor (l : List Nat) : ∀ (s : State), s.ub = false → l.Nodup →
    let s' := l.foldl State.functor s
    s'.log = s.log ∧ s'.waits = s.waits ∧ s'.fns = s.fns ∧ s'.calls = s.calls ∧ s'.listening = s.listening ∧ s'.now = s.now ∧
    (s'.ub = false ↔ ∀ i ∈ l, ∃ w ∈ s.waits, w.id = i) ∧
    (∃ m, s'.posted = s.posted ++ m ∧ (∀ p ∈ m, p.1 ∈ l ∧ ∃ w ∈ s.waits, w.id = p.1) ∧
      (s.pending.length = 1 → ∀ i, (i, none) ∈ m → ∃ j ∈ l, j ≠ i ∧ ∃ w ∈ s.waits, w.id = j)) ∧
    (s'.ub = false → s'.pending = s.pending.drop l.length) := by
  induction l with
  | nil => intro s hu _; exact ⟨rfl, rfl, rfl, rfl, rfl, rfl, by simp [hu], ⟨[], by simp⟩, by simp⟩
  | cons i l ih =>
    intro s hu hnd
    have hnd' := List.nodup_cons.1 hnd
    simp only [List.foldl_cons]
    by_cases ha : s.waits.any (·.id = i) = true
    · have e : s.functor i = { s with pending := s.pending.tail, posted := s.posted ++ [(i, s.pending.head?)] } := by
        unfold State.functor; rw [if_neg (by simp [hu]), if_pos ha]
      have hai : ∃ w ∈ s.waits, w.id = i := by simpa using ha
      rw [e]
      have := ih ({ s with pending := s.pending.tail, posted := s.posted ++ [(i, s.pending.head?)] }) hu hnd'.2
      simp only at this ⊢
      obtain ⟨h1, h2, h3, h4, h5, h6, h7, ⟨m, h8, h9, h10⟩, h11⟩ := this
      refine ⟨h1, h2, h3, h4, h5, h6, ?_, ⟨(i, s.pending.head?) :: m, by rw [h8]; simp, ?_, ?_⟩, ?_⟩
      · rw [h7]; simp [hai]
      · intro p hp
        rcases List.mem_cons.1 hp with rfl | hp
        · exact ⟨by simp, hai⟩
        · exact ⟨by simp [(h9 p hp).1], (h9 p hp).2⟩
      · intro hlen k hk
        rcases List.mem_cons.1 hk with hk | hk
        · cases hpd : s.pending with
          | nil => rw [hpd] at hlen; cases hlen
          | cons d r => rw [hpd] at hk; simp at hk
        · have hkl := (h9 _ hk).1
          refine ⟨i, by simp, ?_, hai⟩
          rintro rfl; exact hnd'.1 hkl
      · intro hub; rw [h11 hub]; simp
    · have e : s.functor i = { s with ub := true } := by
        unfold State.functor; rw [if_neg (by simp [hu]), if_neg ha]
      have stuck : ∀ (l : List Nat) (s : State), s.ub = true → l.foldl State.functor s = s := by
        intro l; induction l with
        | nil => intro s _; rfl
        | cons i l ih => intro s h; rw [List.foldl_cons]; have : s.functor i = s := by unfold State.functor; rw [if_pos h]
                         rw [this]; exact ih s h
      rw [e, stuck l _ rfl]
      refine ⟨rfl, rfl, rfl, rfl, rfl, rfl, ?_, ⟨[], by simp⟩, by simp⟩
      constructor
      · intro h; cases h
      · intro h1; exfalso; apply ha; simpa using h1 i (by simp)

theorem mem_split_last {l p q : List Ev} {x e : Ev} (h : l ++ [x] = p ++ e :: q) : (q = [] ∧ l = p ∧ x = e) ∨ ∃ q', q = q' ++ [x] ∧ l = p ++ e :: q' := by
  rcases List.eq_nil_or_concat q with hq | ⟨q', y, hq⟩
  · subst hq
    obtain ⟨h1, h2⟩ := List.append_inj' (s₁ := l) (t₁ := [x]) (s₂ := p) (t₂ := [e]) (by simpa using h) rfl
    simp at h2; exact .inl ⟨rfl, h1, h2⟩
  · subst hq
    obtain ⟨h1, h2⟩ := List.append_inj' (s₁ := l) (t₁ := [x]) (s₂ := p ++ e :: q') (t₂ := [y]) (by simpa using h) rfl
    simp at h2; subst h2; exact .inr ⟨q', by simp, h1⟩

/-- Events of the environment and the losses: neither call nor return. Specification vocabulary, no counterpart in /repo. -/
def Quiet (e : Ev) : Prop := (∀ i t t0, e ≠ .called i t t0) ∧ retId e = none ∧ ∀ i, e ≠ .suspended i

theorem rets_quiet {m : List Ev} (h : ∀ e ∈ m, Quiet e) : rets m = [] := by
  unfold rets; rw [List.filterMap_eq_nil_iff]; exact fun e he => (h e he).2.1

/-- Appending quiet events. -/
theorem inv_quiet {s s' : State} (h : Inv s) (m : List Ev) (hm : ∀ e ∈ m, Quiet e) (hl : s'.log = s.log ++ m) (hls : s'.ub = false → s'.listening = listens s'.log)
    (hw : s'.waits = s.waits) (hf : s'.fns = s.fns) (hc : s'.calls = s.calls)
    (hp : ∀ p ∈ s'.posted, ∃ w ∈ s.waits, w.id = p.1) (hn : ∀ i, (i, none) ∈ s'.posted → NullCause s'.log i)
    (hpd : s'.ub = false → s.waits ≠ [] → s'.pending = []) : Inv s' := by
  have hr : rets s'.log = rets s.log := by rw [hl, rets_append, rets_quiet hm, List.append_nil]
  have hcm : ∀ i t t0, .called i t t0 ∈ s'.log → .called i t t0 ∈ s.log := by
    intro i t t0 hx; rw [hl] at hx
    rcases List.mem_append.1 hx with hx | hx
    · exact hx
    · exact absurd rfl ((hm _ hx).1 i t t0)
  refine ⟨hls, by rw [hf, hc]; exact h.ids, by rw [hf]; exact h.fnd, by rw [hw, hf]; exact h.wfn, by rw [hw]; exact h.wnd, by rw [hw]; exact hp,
    ?_, by rw [hw, hr]; exact h.wret, by rw [hr]; exact h.rnd, by rw [hr, hc]; exact h.rlt, fun i t t0 hx => by rw [hc]; exact h.clt i t t0 (hcm i t t0 hx),
    hn, by rw [hw]; exact hpd, by rw [hf, hr, hw]; exact h.fnc, ?_⟩
  · rw [hw, hl]; intro w hw'; exact since_append m (h.wcall w hw') (fun _ _ _ _ x => x)
  · rw [hl, hf]; intro i hi
    rcases List.mem_append.1 hi with hi | hi
    · exact h.susp i hi
    · exact absurd rfl ((hm _ hi).2.2 i)

/-- A suspended call returns. -/
theorem inv_finish {s : State} (h : Inv s) (i : Nat) (r : Option Nat) (hi : ∃ w ∈ s.waits, w.id = i) : Inv (s.finish i r) := by
  have hq : ∀ e ∈ s.posted.filterMap (fun p => if p.1 = i then p.2.map Ev.lost else none), ∃ d, e = .lost d := by
    intro e he
    obtain ⟨p, _, hp⟩ := List.mem_filterMap.1 he
    split at hp
    · cases hx : p.2 with
      | none => rw [hx] at hp; cases hp
      | some d => rw [hx] at hp; simp at hp; exact ⟨d, hp.symm⟩
    · cases hp
  have hquiet : ∀ e ∈ s.posted.filterMap (fun p => if p.1 = i then p.2.map Ev.lost else none), Quiet e := by
    intro e he; obtain ⟨d, rfl⟩ := hq e he; exact ⟨by simp, rfl, by simp⟩
  have hr : rets (s.finish i r).log = rets s.log ++ [i] := by
    unfold State.finish; simp only [rets_append, rets_quiet hquiet]; simp [rets, retId]
  have hlog : (s.finish i r).log = s.log ++ ([.ret i r s.now] ++ s.posted.filterMap (fun p => if p.1 = i then p.2.map Ev.lost else none)) := by
    unfold State.finish; simp
  have hcm : ∀ j t t0, .called j t t0 ∈ (s.finish i r).log → .called j t t0 ∈ s.log := by
    intro j t t0 hx; rw [hlog] at hx
    simp only [List.mem_append, List.mem_singleton] at hx
    rcases hx with hx | hx | hx
    · exact hx
    · cases hx
    · obtain ⟨d, hd⟩ := hq _ hx; cases hd
  have hir : i ∉ rets s.log := by obtain ⟨w, hw, rfl⟩ := hi; exact h.wret w hw
  constructor
  · intro hu
    have := h.lst hu
    rw [hlog, listens_append]
    · exact this
    · intro e he; simp only [List.mem_append, List.mem_singleton] at he
      rcases he with rfl | he
      · simp
      · obtain ⟨d, rfl⟩ := hq e he; simp
  · exact h.ids
  · exact h.fnd
  · intro w hw; exact h.wfn w (List.mem_filter.1 hw).1
  · exact List.Nodup.sublist (List.Sublist.map _ (List.filter_sublist)) h.wnd
  · intro p hp
    obtain ⟨hp1, hp2⟩ := List.mem_filter.1 hp
    obtain ⟨w, hw, e⟩ := h.post p hp1
    exact ⟨w, List.mem_filter.2 ⟨hw, by simpa [e] using hp2⟩, e⟩
  · intro w hw
    rw [hlog]; exact since_append _ (h.wcall w (List.mem_filter.1 hw).1) (fun _ _ _ _ x => x)
  · intro w hw
    obtain ⟨h1, h2⟩ := List.mem_filter.1 hw
    rw [hr]; simp at h2; simp [h.wret w h1, h2]
  · rw [hr, List.nodup_append]; refine ⟨h.rnd, by simp, ?_⟩
    intro a ha b hb; simp at hb; subst hb; rintro rfl; exact hir ha
  · rw [hr]; intro j hj; simp at hj
    rcases hj with hj | rfl
    · exact h.rlt j hj
    · obtain ⟨w, hw, rfl⟩ := hi; exact h.ids _ (h.wfn w hw)
  · intro j t t0 hx; exact h.clt j t t0 (hcm j t t0 hx)
  · intro j hj
    rw [hlog]; exact null_append _ (h.pnull j (List.mem_filter.1 hj).1)
  · intro hu hw
    apply h.pend hu
    intro e; apply hw; unfold State.finish; simp [e]
  · intro j hj
    rw [hr]
    rcases h.fnc j hj with hx | ⟨w, hw, rfl⟩
    · left; simp [hx]
    · by_cases hji : w.id = i
      · left; simp [hji]
      · right; exact ⟨w, List.mem_filter.2 ⟨hw, by simpa using hji⟩, rfl⟩
  · rw [hlog]; intro j hj; simp only [List.mem_append, List.mem_singleton] at hj
    rcases hj with hj | hj | hj
    · exact h.susp j hj
    · cases hj
    · obtain ⟨d, hd⟩ := hq _ hj; cases hd

theorem inv_immediate {s s' : State} (h : Inv s) (t : Int) (r : Option Nat) (hl : s'.log = s.log ++ [.called s.calls t s.now] ++ [.ret s.calls r s.now])
    (hc : s'.calls = s.calls + 1) (hw : s'.waits = s.waits) (hf : s'.fns = s.fns) (hp : s'.posted = s.posted) (hls : s'.listening = s.listening)
    (hu : s'.ub = s.ub) (hpd : s'.ub = false → s'.waits ≠ [] → s'.pending = []) : Inv s' := by
  have hr : rets s'.log = rets s.log ++ [s.calls] := by rw [hl, rets_append, rets_append]; simp [rets, retId]
  have hl' : s'.log = s.log ++ [.called s.calls t s.now, .ret s.calls r s.now] := by rw [hl]; simp
  constructor
  · intro hub
    rw [hls, hl', listens_append _ _ (by simp)]; exact h.lst (by rw [← hu]; exact hub)
  · rw [hf, hc]; intro i hi; have := h.ids i hi; omega
  · rw [hf]; exact h.fnd
  · rw [hw, hf]; exact h.wfn
  · rw [hw]; exact h.wnd
  · rw [hw, hp]; exact h.post
  · rw [hw, hl']; intro w hw'; exact since_append _ (h.wcall w hw') (fun _ _ _ _ x => x)
  · rw [hw, hr]; intro w hw'
    have := h.ids _ (h.wfn w hw')
    simp [h.wret w hw']; omega
  · rw [hr, List.nodup_append]; refine ⟨h.rnd, by simp, ?_⟩
    intro a ha b hb; simp at hb; subst hb; have := h.rlt a ha; omega
  · rw [hr, hc]; intro i hi; simp at hi
    rcases hi with hi | rfl
    · have := h.rlt i hi; omega
    · omega
  · rw [hc, hl']; intro i t' t0 hx
    simp at hx
    rcases hx with hx | ⟨rfl, _⟩
    · have := h.clt i t' t0 hx; omega
    · omega
  · rw [hp, hl']; intro i hi; exact null_append _ (h.pnull i hi)
  · exact hpd
  · rw [hf, hr, hw]; intro i hi
    rcases h.fnc i hi with hx | hx
    · left; simp [hx]
    · exact .inr hx
  · rw [hl', hf]; intro i hi; simp at hi; exact h.susp i hi

theorem inv_suspend {s : State} (h : Inv s) (t : Int) (hpd : s.pending = []) (hls : s.ub = false → s.listening = true) :
    Inv { s with calls := s.calls + 1, waits := s.waits ++ [⟨s.calls, if t > -1 then some (s.now + t.toNat) else none⟩], fns := s.fns ++ [s.calls], log := s.log ++ [.called s.calls t s.now] ++ [.suspended s.calls] } := by
  have hr : rets (s.log ++ [.called s.calls t s.now] ++ [.suspended s.calls]) = rets s.log := by rw [rets_append, rets_append]; simp [rets, retId]
  constructor
  · intro hub; simp only; rw [listens_append _ _ (by simp), listens_append _ _ (by simp)]; exact h.lst hub
  · intro i hi; simp at hi ⊢; rcases hi with hi | rfl
    · have := h.ids i hi; omega
    · omega
  · simp only [List.nodup_append]; refine ⟨h.fnd, by simp, ?_⟩
    intro a ha b hb; simp at hb; subst hb; have := h.ids a ha; omega
  · intro w hw; simp only [List.mem_append, List.mem_singleton] at hw ⊢
    rcases hw with hw | rfl
    · exact .inl (h.wfn w hw)
    · exact .inr rfl
  · simp only [List.map_append, List.nodup_append]; refine ⟨h.wnd, by simp, ?_⟩
    intro a ha b hb; simp at hb; subst hb
    obtain ⟨w, hw, rfl⟩ := List.mem_map.1 ha
    have := h.ids _ (h.wfn w hw); omega
  · intro p hp; obtain ⟨w, hw, e⟩ := h.post p hp; exact ⟨w, by simp [hw], e⟩
  · intro w hw; simp only [List.mem_append, List.mem_singleton] at hw
    rcases hw with hw | rfl
    · exact since_append _ (since_append _ (h.wcall w hw) (fun _ _ _ _ x => x)) (fun _ _ _ _ x => x)
    · exact ⟨s.log, t, s.now, [.suspended s.calls], by simp, rfl⟩
  · intro w hw; simp only [hr]; simp only [List.mem_append, List.mem_singleton] at hw
    rcases hw with hw | rfl
    · exact h.wret w hw
    · intro hx; have := h.rlt _ hx; simp at this
  · simp only [hr]; exact h.rnd
  · simp only [hr]; intro i hi; have := h.rlt i hi; omega
  · intro i t' t0 hx; simp at hx ⊢
    rcases hx with hx | ⟨rfl, _⟩
    · have := h.clt i t' t0 hx; omega
    · omega
  · intro i hi; exact null_append _ (null_append _ (h.pnull i hi))
  · intro _ _; exact hpd
  · simp only [hr]; intro i hi; simp only [List.mem_append, List.mem_singleton] at hi
    rcases hi with hi | rfl
    · rcases h.fnc i hi with hx | ⟨w, hw, e⟩
      · exact .inl hx
      · exact .inr ⟨w, by simp [hw], e⟩
    · exact .inr ⟨_, List.mem_append.2 (.inr (List.mem_singleton.2 rfl)), rfl⟩
  · intro i hi; simp only [List.mem_append, List.mem_singleton] at hi ⊢
    rcases hi with (hi | hi) | hi
    · exact .inl (h.susp i hi)
    · cases hi
    · cases hi; exact .inr rfl

theorem inv_step {s : State} (h : Inv s) (op : Op) : Inv (step s op) := by
  unfold step
  split
  · exact h
  rename_i hub
  have hub : s.ub = false := by simpa using hub
  cases op with
  | call t =>
    dsimp only; split
    · exact inv_immediate h t none rfl rfl rfl rfl rfl rfl rfl h.pend
    · rename_i hl
      have key : ∀ pd, s.pending = pd → Inv (match pd with
        | c :: rest => { s with calls := s.calls + 1, pending := rest, log := s.log ++ [.called s.calls t s.now] ++ [.ret s.calls (some c) s.now] }
        | [] => { s with calls := s.calls + 1, waits := s.waits ++ [⟨s.calls, if t > -1 then some (s.now + t.toNat) else none⟩], fns := s.fns ++ [s.calls], log := s.log ++ [.called s.calls t s.now] ++ [.suspended s.calls] }) := by
        intro pd e
        cases pd with
        | nil => exact inv_suspend h t e (fun _ => by simpa using hl)
        | cons c rest =>
          refine inv_immediate h t (some c) rfl rfl rfl rfl rfl rfl rfl ?_
          intro _ hw; have := h.pend hub hw; rw [e] at this; cases this
      exact key _ rfl
  | newConn c =>
    dsimp only
    have hs := fold_functor s.fns { s with pending := s.pending ++ [c], log := s.log ++ [.conn c] } hub h.fnd
    dsimp only at hs
    obtain ⟨h1, h2, h3, h4, h5, h6, h7, ⟨m, h8, h9, h10⟩, h11⟩ := hs
    refine inv_quiet h [.conn c] (by simp [Quiet, retId]) h1 ?_ h2 h3 h4 ?_ ?_ ?_
    · intro _; rw [h1, h5, listens_append _ _ (by simp)]; exact h.lst hub
    · rw [h8]; intro p hp
      rcases List.mem_append.1 hp with hp | hp
      · exact h.post p hp
      · exact (h9 p hp).2
    · rw [h8, h1]; intro i hi
      rcases List.mem_append.1 hi with hi | hi
      · exact null_append _ (h.pnull i hi)
      · obtain ⟨_, w, hw, e⟩ := h9 _ hi
        have hne : s.waits ≠ [] := fun x => by rw [x] at hw; cases hw
        obtain ⟨j, _, hji, w', hw', e'⟩ := h10 (by simp [h.pend hub hne]) i hi
        obtain ⟨p, t, t0, q, ec, _⟩ := h.wcall w hw
        simp only at e; subst e
        refine ⟨p, t, t0, q ++ [.conn c], by simp [ec], .inr ?_⟩
        obtain ⟨p', t', t0', q', ec', _⟩ := h.wcall w' hw'
        refine ⟨q, c, [], j, t', t0', rfl, hji, ?_, ?_⟩
        · rw [← ec, ← e', ec']; simp
        · rw [← ec, ← e']; exact h.wret w' hw'
    · intro hu hne
      rw [h11 hu]
      rw [h.pend hub hne]
      have : s.fns ≠ [] := by
        intro e
        obtain ⟨w, l, hw⟩ := List.exists_cons_of_ne_nil hne
        have := h.wfn w (by rw [hw]; simp)
        rw [e] at this; cases this
      obtain ⟨f, l, hf⟩ := List.exists_cons_of_ne_nil this
      rw [hf]; simp
  | close =>
    refine inv_quiet h (s.pending.map .rejected ++ [.closed]) ?_ (by simp) ?_ rfl rfl rfl ?_ ?_ (fun _ _ => rfl)
    · intro e he; simp at he
      rcases he with ⟨a, _, rfl⟩ | rfl <;> exact ⟨by simp, rfl, by simp⟩
    · intro _; show false = listens (s.log ++ s.pending.map .rejected ++ [.closed]); unfold listens; rw [List.foldl_append]; rfl
    · intro p hp
      rcases List.mem_append.1 hp with hp | hp
      · exact h.post p hp
      · obtain ⟨w, hw, rfl⟩ := List.mem_map.1 hp; exact ⟨w, hw, rfl⟩
    · intro i hi
      rcases List.mem_append.1 hi with hi | hi
      · simp only [List.append_assoc]; exact null_append _ (h.pnull i hi)
      · obtain ⟨w, hw, e⟩ := List.mem_map.1 hi
        simp at e; subst e
        obtain ⟨p, t, t0, q, ec, _⟩ := h.wcall w hw
        exact ⟨p, t, t0, q ++ (s.pending.map .rejected ++ [.closed]), by simp [ec], .inl (by simp)⟩
  | listen =>
    refine inv_quiet h [.listen] (by simp [Quiet, retId]) rfl ?_ rfl rfl rfl h.post (fun i hi => null_append _ (h.pnull i hi)) h.pend
    intro _; show true = listens (s.log ++ [.listen]); unfold listens; rw [List.foldl_append]; rfl
  | deliver =>
    dsimp only
    have key : ∀ l, s.posted = l → Inv (match l with | [] => s | (i, r) :: rest => ({ s with posted := rest } : State).finish i r) := by
      intro l e
      cases l with
      | nil => exact h
      | cons p rest =>
        obtain ⟨i, r⟩ := p
        apply inv_finish
        · exact inv_quiet h [] (by simp) (by simp) h.lst rfl rfl rfl (fun p hp => h.post p (by rw [e]; exact List.mem_cons_of_mem _ hp))
            (fun j hj => h.pnull j (by rw [e]; exact List.mem_cons_of_mem _ hj)) h.pend
        · obtain ⟨w, hw, he⟩ := h.post (i, r) (by rw [e]; simp); exact ⟨w, hw, he⟩
    exact key _ rfl
  | time d => exact inv_quiet h [] (by simp) (by simp) h.lst rfl rfl rfl h.post h.pnull h.pend
  | fire i =>
    dsimp only; split
    · rename_i hd
      apply inv_finish h
      obtain ⟨w, hw, he⟩ := List.any_eq_true.1 hd
      simp at he; exact ⟨w, hw, he.1⟩
    · exact h

theorem inv_exec (ops : List Op) : Inv (exec ops) := by
  induction ops using snocInd with
  | nil =>
    constructor <;> simp [exec, rets]
    rfl
  | snoc ops op ih => rw [exec_snoc]; exact inv_step ih op

/-! ### C54 -/

/-- A connection is pending: returned at once, oldest first; not listening: nullptr at once. -/
theorem C54_at_once (ops : List Op) (t : Int) (hu : (exec ops).ub = false) : let s := exec ops; let s' := exec (ops ++ [.call t])
    (listens s.log = false → s'.log = s.log ++ [.called s.calls t s.now, .ret s.calls none s.now]) ∧
    (listens s.log = true → ∀ c rest, s.pending = c :: rest → s'.log = s.log ++ [.called s.calls t s.now, .ret s.calls (some c) s.now] ∧ s'.pending = rest) ∧
    (listens s.log = true → s.pending = [] → s'.log = s.log ++ [.called s.calls t s.now, .suspended s.calls]) := by
  dsimp only
  rw [exec_snoc]
  have hl := (inv_exec ops).lst hu
  generalize exec ops = s at *
  unfold step
  rw [if_neg (by simp [hu])]
  dsimp only
  refine ⟨fun h => ?_, fun h c rest hp => ?_, fun h hp => ?_⟩
  · rw [if_pos (by rw [hl, h])]; simp
  · rw [if_neg (by rw [hl, h]; simp), hp]; simp
  · rw [if_neg (by rw [hl, h]; simp), hp]; simp

/-- Every call returns at most once. -/
theorem C54_once (ops : List Op) : (rets (exec ops).log).Nodup := (inv_exec ops).rnd

/-- No connection is returned more often than it arrived: connections are neither invented nor duplicated. -/
theorem C54_no_duplicates (ops : List Op) (c : Nat) : (exec ops).log.countP (isRet c) ≤ (exec ops).log.countP (isConn c) := by
  have := C54_conservation ops c
  dsimp only at this; omega

/-- Why a call returns nullptr: the server did not listen when it was called, the server was closed during the call, the
(non-negative) timeout has passed — or a connection arrived that another waiting call took.
Specification vocabulary, no counterpart in /repo. -/
def NullReturn (pre : List Ev) (i now : Nat) : Prop := Since pre i (fun t t0 p q =>
  (q = [] ∧ listens p = false) ∨ .closed ∈ q ∨ (0 ≤ t ∧ (t0 : Int) + t ≤ now) ∨ Taken i p q t t0)

theorem C54_null (ops : List Op) (pre post : List Ev) (i now : Nat) (h : (exec ops).log = pre ++ .ret i none now :: post) : NullReturn pre i now := by
  induction ops using snocInd generalizing post with
  | nil => simp [exec] at h
  | snoc ops op ih =>
    rw [exec_snoc] at h
    have hi := inv_exec ops
    generalize exec ops = s at *
    -- logs extended by events that are not null returns
    have quiet : ∀ m : List Ev, (∀ e ∈ m, ∀ i n, e ≠ .ret i none n) → ∀ l : List Ev, (∀ post, l = pre ++ .ret i none now :: post → NullReturn pre i now) →
        ∀ post, l ++ m = pre ++ .ret i none now :: post → NullReturn pre i now := by
      intro m
      induction m using snocInd with
      | nil => intro _ l hl post e; exact hl post (by simpa using e)
      | snoc m x ihm =>
        intro hm l hl post e
        rw [← List.append_assoc] at e
        rcases mem_split_last e with ⟨_, _, hx⟩ | ⟨q', _, e2⟩
        · exact absurd hx (hm x (by simp) i now)
        · exact ihm (fun e he => hm e (by simp [he])) l hl q' e2
    have fin : ∀ (s1 : State) (j : Nat) (r : Option Nat), s1.log = s.log → s1.now = s.now → (r = none → NullReturn s.log j s.now) →
        (s1.finish j r).log = pre ++ .ret i none now :: post → NullReturn pre i now := by
      intro s1 j r hl hnow hcause e
      unfold State.finish at e
      simp only at e
      refine quiet _ ?_ (s1.log ++ [.ret j r s1.now]) ?_ post e
      · intro x hx k n
        obtain ⟨p, _, hp⟩ := List.mem_filterMap.1 hx
        split at hp
        · cases h2 : p.2 with
          | none => rw [h2] at hp; cases hp
          | some d => rw [h2] at hp; simp at hp; subst hp; simp
        · cases hp
      · intro post e
        rcases mem_split_last e with ⟨_, e1, hx⟩ | ⟨q', _, e2⟩
        · cases hx; rw [← e1, hl, hnow]; exact hcause rfl
        · rw [hl] at e2; exact ih _ e2
    unfold step at h
    split at h
    · exact ih _ h
    rename_i hub
    have hub : s.ub = false := by simpa using hub
    cases op with
    | call t =>
      dsimp only at h; split at h
      · rename_i hl
        simp only at h
        rcases mem_split_last h with ⟨_, e1, hx⟩ | ⟨q', _, e2⟩
        · cases hx; rw [← e1]
          exact ⟨s.log, t, s.now, [], by simp, .inl ⟨rfl, by rw [← hi.lst hub]; simpa using hl⟩⟩
        · rcases mem_split_last e2 with ⟨_, _, hx⟩ | ⟨q2, _, e3⟩
          · cases hx
          · exact ih _ e3
      · split at h
        · simp only at h
          exact quiet [.called s.calls t s.now, .ret s.calls (some _) s.now] (by simp) s.log (fun post e => ih post e) post (by simpa using h)
        · exact quiet [.called s.calls t s.now, .suspended s.calls] (by simp) s.log (fun post e => ih post e) post (by simpa using h)
    | newConn c =>
      dsimp only at h
      have hs := fold_functor s.fns { s with pending := s.pending ++ [c], log := s.log ++ [.conn c] } hub hi.fnd
      dsimp only at hs
      rw [hs.1] at h
      exact quiet _ (by simp) s.log (fun post e => ih post e) post h
    | close =>
      simp only at h
      exact quiet (s.pending.map .rejected ++ [.closed]) (by rintro e he; simp at he; rcases he with ⟨a, _, rfl⟩ | rfl <;> simp) s.log (fun post e => ih post e) post (by simpa using h)
    | listen => exact quiet _ (by simp) s.log (fun post e => ih post e) post h
    | deliver =>
      dsimp only at h
      cases hp : s.posted with
      | nil => rw [hp] at h; exact ih _ h
      | cons p rest =>
        obtain ⟨j, r⟩ := p
        rw [hp] at h
        refine fin { s with posted := rest } j r rfl rfl ?_ h
        intro hr; subst hr
        obtain ⟨a, t, t0, b, e, hc⟩ := hi.pnull j (by rw [hp]; simp)
        refine ⟨a, t, t0, b, e, ?_⟩
        rcases hc with hc | hc
        · exact .inr (.inl hc)
        · exact .inr (.inr (.inr hc))
    | time d => exact ih _ h
    | fire j =>
      dsimp only at h; split at h
      · rename_i hd
        refine fin s j none rfl rfl (fun _ => ?_) h
        obtain ⟨w, hw, he⟩ := List.any_eq_true.1 hd
        simp at he
        obtain ⟨a, t, t0, b, e, hc⟩ := hi.wcall w hw
        rw [he.1] at e
        refine ⟨a, t, t0, b, e, .inr (.inr (.inl ?_))⟩
        have := he.2
        unfold Wait.dueBy at this
        rw [hc] at this
        unfold due at this
        by_cases ht : t > -1
        · rw [if_pos ht] at this
          simp at this; omega
        · rw [if_neg ht] at this; cases this
      · exact ih _ h

/-- Without concurrent calls nullptr means: not listening, closed during the call, or timed out. -/
theorem C54_null_sequential (ops : List Op) (pre post : List Ev) (i now : Nat) (h : (exec ops).log = pre ++ .ret i none now :: post)
    (hseq : ∀ p j t t0 q, pre = p ++ .called j t t0 :: q → ∀ k t' t0', .called k t' t0' ∈ p → k ∈ rets p) :
    Since pre i (fun t t0 p q => (q = [] ∧ listens p = false) ∨ .closed ∈ q ∨ (0 ≤ t ∧ (t0 : Int) + t ≤ now)) := by
  obtain ⟨p, t, t0, q, e, hc⟩ := C54_null ops pre post i now h
  refine ⟨p, t, t0, q, e, ?_⟩
  rcases hc with hc | hc | hc | ⟨q1, c, q2, j, t', t0', e2, h1, h2, h3⟩
  · exact .inl hc
  · exact .inr (.inl hc)
  · exact .inr (.inr hc)
  · exfalso
    have hji := h1
    simp only [List.mem_append, List.mem_cons] at h2
    rcases h2 with h2 | h2 | h2
    · -- called before: it had returned
      have := hseq p i t t0 q e j t' t0' h2
      exact h3 (by rw [rets_append]; simp [this])
    · cases h2; exact h1 rfl
    · -- called later: then this one had returned before, which it has not
      obtain ⟨a, b, rfl⟩ := List.append_of_mem h2
      have hi' := hseq (p ++ .called i t t0 :: a) j t' t0' (b ++ .conn c :: q2) (by rw [e, e2]; simp) i t t0 (by simp)
      have hnd : (rets (pre ++ .ret i none now :: post)).Nodup := by rw [← h]; exact (inv_exec ops).rnd
      rw [rets_append, List.nodup_append] at hnd
      refine hnd.2.2 i ?_ i (by simp [rets, retId]) rfl
      rw [e, e2, show p ++ Ev.called i t t0 :: (a ++ Ev.called j t' t0' :: b ++ Ev.conn c :: q2) = (p ++ Ev.called i t t0 :: a) ++ (Ev.called j t' t0' :: b ++ Ev.conn c :: q2) by simp, rets_append]
      simp [hi']

/-- Connections are returned in the order of their arrival, also by overlapping calls. -/
theorem C54_order (ops : List Op) :
    (returned (exec ops).log).Sublist (arrivals (exec ops).log) := by
  have happ : ∀ l m, returned (l ++ m) = returned l ++ returned m := by intro l m; simp [returned]
  have harr : ∀ l m, arrivals (l ++ m) = arrivals l ++ arrivals m := by intro l m; simp [arrivals]
  suffices h : (returned (exec ops).log ++ ((exec ops).posted.filterMap (·.2) ++ (exec ops).pending)).Sublist (arrivals (exec ops).log) from
    (List.sublist_append_left _ _).trans h
  induction ops using snocInd with
  | nil => simp [exec, returned, arrivals]
  | snoc ops op ih =>
    have hi := inv_exec ops
    rw [exec_snoc]
    generalize exec ops = s at *
    have flush : ∀ (s1 : State) (j : Nat) (r : Option Nat), s1.log = s.log → s1.pending = s.pending →
        (r.toList ++ s1.posted.filterMap (·.2)).Sublist (s.posted.filterMap (·.2)) →
        (returned (s1.finish j r).log ++ ((s1.finish j r).posted.filterMap (·.2) ++ (s1.finish j r).pending)).Sublist (arrivals (s1.finish j r).log) := by
      intro s1 j r hl hpd hsub
      have hL : ∀ e ∈ s1.posted.filterMap (fun p => if p.1 = j then p.2.map Ev.lost else none), ∃ d, e = .lost d := by
        intro e he
        obtain ⟨p, _, hp⟩ := List.mem_filterMap.1 he
        split at hp
        · cases hx : p.2 with
          | none => rw [hx] at hp; cases hp
          | some d => rw [hx] at hp; simp at hp; exact ⟨d, hp.symm⟩
        · cases hp
      have h1 : returned (s1.posted.filterMap (fun p => if p.1 = j then p.2.map Ev.lost else none)) = [] := by
        unfold returned; rw [List.filterMap_eq_nil_iff]; intro e he; obtain ⟨d, rfl⟩ := hL e he; rfl
      have h2 : arrivals (s1.posted.filterMap (fun p => if p.1 = j then p.2.map Ev.lost else none)) = [] := by
        unfold arrivals; rw [List.filterMap_eq_nil_iff]; intro e he; obtain ⟨d, rfl⟩ := hL e he; rfl
      unfold State.finish
      simp only [happ, harr, h1, h2, List.append_nil]
      rw [hl, hpd, show returned [Ev.ret j r s1.now] = r.toList by cases r <;> rfl, show arrivals [Ev.ret j r s1.now] = [] from rfl, List.append_nil]
      refine List.Sublist.trans ?_ ih
      rw [List.append_assoc]
      apply List.Sublist.append (List.Sublist.refl _)
      rw [← List.append_assoc]
      apply List.Sublist.append _ (List.Sublist.refl _)
      refine List.Sublist.trans ?_ hsub
      apply List.Sublist.append (List.Sublist.refl _)
      exact (List.filter_sublist).filterMap _
    unfold step
    split
    · exact ih
    rename_i hub
    cases op with
    | call t =>
      dsimp only; split
      · simp only [happ, harr]
        simpa [returned, arrivals, retSock, arrival, List.filterMap_cons] using ih
      · split
        · rename_i c rest e
          have hw : s.waits = [] := by
            apply Classical.byContradiction; intro hw
            have := hi.pend (by simpa using hub) hw
            rw [e] at this; cases this
          have hp : s.posted = [] := by
            apply List.eq_nil_iff_forall_not_mem.2
            intro p hp; obtain ⟨w, hw', _⟩ := hi.post p hp; rw [hw] at hw'; cases hw'
          simp only [happ, harr]
          rw [hp, e] at ih
          rw [hp]
          simpa [returned, arrivals, retSock, arrival, List.filterMap_cons] using ih
        · simp only [happ, harr]
          simpa [returned, arrivals, retSock, arrival, List.filterMap_cons] using ih
    | newConn c =>
      dsimp only
      have hfold : ∀ (l : List Nat) (s1 : State), (l.foldl State.functor s1).log = s1.log ∧
          ((l.foldl State.functor s1).posted.filterMap (·.2) ++ (l.foldl State.functor s1).pending) = s1.posted.filterMap (·.2) ++ s1.pending := by
        intro l
        induction l with
        | nil => intro s1; exact ⟨rfl, rfl⟩
        | cons i l ihl =>
          intro s1
          rw [List.foldl_cons]
          obtain ⟨a, b⟩ := ihl (s1.functor i)
          rw [a, b]
          unfold State.functor
          split
          · exact ⟨rfl, rfl⟩
          · split
            · refine ⟨rfl, ?_⟩
              simp only [List.filterMap_append]
              cases s1.pending <;> simp
            · exact ⟨rfl, rfl⟩
      obtain ⟨a, b⟩ := hfold s.fns { s with pending := s.pending ++ [c], log := s.log ++ [.conn c] }
      rw [a, b]
      simp only [happ, harr]
      rw [show returned [Ev.conn c] = [] from rfl, show arrivals [Ev.conn c] = [c] from rfl, List.append_nil, ← List.append_assoc, ← List.append_assoc, List.append_assoc (returned s.log)]
      exact List.Sublist.append ih (List.Sublist.refl _)
    | close =>
      simp only [happ, harr]
      have h1 : returned (s.pending.map Ev.rejected) = [] := by
        unfold returned; rw [List.filterMap_eq_nil_iff]; intro e he; obtain ⟨d, _, rfl⟩ := List.mem_map.1 he; rfl
      have h2 : arrivals (s.pending.map Ev.rejected) = [] := by
        unfold arrivals; rw [List.filterMap_eq_nil_iff]; intro e he; obtain ⟨d, _, rfl⟩ := List.mem_map.1 he; rfl
      have h3 : (s.waits.map (fun w => (w.id, (none : Option Nat)))).filterMap (·.2) = [] := by
        rw [List.filterMap_eq_nil_iff]; intro e he; obtain ⟨d, _, rfl⟩ := List.mem_map.1 he; rfl
      rw [h1, h2, List.filterMap_append, h3]
      simp only [List.append_nil, show returned [Ev.closed] = [] from rfl, show arrivals [Ev.closed] = [] from rfl]
      refine List.Sublist.trans ?_ ih
      exact List.Sublist.append (List.Sublist.refl _) (List.sublist_append_left _ _)
    | listen => simp only [happ, harr]; simpa [returned, arrivals, retSock, arrival, List.filterMap_cons] using ih
    | deliver =>
      dsimp only
      have key : ∀ l, s.posted = l → let s' := (match l with | [] => s | (i, r) :: rest => ({ s with posted := rest } : State).finish i r)
          (returned s'.log ++ (s'.posted.filterMap (·.2) ++ s'.pending)).Sublist (arrivals s'.log) := by
        intro l e
        cases l with
        | nil => exact ih
        | cons p rest =>
          obtain ⟨i, r⟩ := p
          refine flush { s with posted := rest } i r rfl rfl ?_
          rw [e]; cases r <;> simp
      exact key _ rfl
    | time d => exact ih
    | fire i =>
      dsimp only; split
      · exact flush s i none rfl rfl (by simp)
      · exact ih

/-- Three connections, the last two while two calls overlap. -/
example : (returned (exec [.newConn 1, .call (-1), .call (-1), .call 5, .newConn 2, .deliver, .deliver]).log) = [1, 2] := by decide

/-! Progress of a call that is the first one to wait on this server. -/

/-- No earlier call had to wait, this one is waiting, and nothing is on its way to it.
Specification vocabulary, no counterpart in /repo. -/
structure FirstWait (s : State) (i : Nat) (d : Option Nat) : Prop where
  waits : s.waits = [⟨i, d⟩]
  fns : s.fns = [i]
  posted : s.posted = []
  ub : s.ub = false

/-- The call that starts the first wait. -/
theorem firstWait_call (ops : List Op) (t : Int) (hu : (exec ops).ub = false) (hl : listens (exec ops).log = true) (hp : (exec ops).pending = [])
    (hf : (exec ops).fns = []) : FirstWait (exec (ops ++ [.call t])) (exec ops).calls (due t (exec ops).now) := by
  have hi := inv_exec ops
  have hw : (exec ops).waits = [] := by
    apply List.eq_nil_iff_forall_not_mem.2
    intro w hw; have := hi.wfn w hw; rw [hf] at this; cases this
  have hpo : (exec ops).posted = [] := by
    apply List.eq_nil_iff_forall_not_mem.2
    intro w h; obtain ⟨w', h', _⟩ := hi.post w h; rw [hw] at h'; cases h'
  have hls := hi.lst hu
  rw [exec_snoc]
  generalize exec ops = s at *
  unfold step
  rw [if_neg (by simp [hu])]
  dsimp only
  rw [if_neg (by rw [hls, hl]; simp), hp]
  exact ⟨by simp [hw, due], by simp [hf], hpo, hu⟩

/-- What is on its way to the call stays first in the queue until the event loop turns to it or to a timer. -/
theorem mid_keeps (i : Nat) (r : Option Nat) (mid : List Op) (hm : ∀ op ∈ mid, op ≠ .deliver ∧ ∀ j, op ≠ .fire j) : ∀ s : State, s.ub = false → Inv s →
    (∃ rest, s.posted = (i, r) :: rest) → (∀ j ∈ s.fns, ∃ w ∈ s.waits, w.id = j) →
    (mid.foldl step s).ub = false ∧ ∃ rest, (mid.foldl step s).posted = (i, r) :: rest := by
  induction mid with
  | nil => intro s hu _ h _; exact ⟨hu, h⟩
  | cons op mid ih =>
    intro s hu hi hp hall
    have ih := ih (fun o ho => hm o (by simp [ho])) (step s op)
    have h0 := hm op (by simp)
    rw [List.foldl_cons]
    have hi' := inv_step hi op
    obtain ⟨rest, hp⟩ := hp
    suffices hs : (step s op).ub = false ∧ (∃ rest, (step s op).posted = (i, r) :: rest) ∧ (∀ j ∈ (step s op).fns, ∃ w ∈ (step s op).waits, w.id = j) from
      ih hs.1 hi' hs.2.1 hs.2.2
    unfold step
    rw [if_neg (by simp [hu])]
    cases op with
    | call t =>
      dsimp only; split
      · exact ⟨hu, ⟨rest, hp⟩, hall⟩
      · split
        · exact ⟨hu, ⟨rest, hp⟩, hall⟩
        · refine ⟨hu, ⟨rest, hp⟩, ?_⟩
          intro j hj
          simp only [List.mem_append, List.mem_singleton] at hj
          rcases hj with hj | rfl
          · obtain ⟨w, hw, e⟩ := hall j hj; exact ⟨w, by simp [hw], e⟩
          · exact ⟨_, List.mem_append.2 (.inr (List.mem_singleton.2 rfl)), rfl⟩
    | newConn c =>
      dsimp only
      have hs := fold_functor s.fns { s with pending := s.pending ++ [c], log := s.log ++ [.conn c] } hu hi.fnd
      dsimp only at hs
      obtain ⟨h1, h2, h3, h4, h5, h6, h7, ⟨m, h8, _⟩, _⟩ := hs
      exact ⟨h7.2 hall, ⟨rest ++ m, by rw [h8, hp]; rfl⟩, by rw [h3, h2]; exact hall⟩
    | close => exact ⟨hu, ⟨_, by simp only; rw [hp]; rfl⟩, hall⟩
    | listen => exact ⟨hu, ⟨rest, hp⟩, hall⟩
    | time d => exact ⟨hu, ⟨rest, hp⟩, hall⟩
    | deliver => exact absurd rfl h0.1
    | fire j => exact absurd rfl (h0.2 j)

theorem exec_append (a b : List Op) : exec (a ++ b) = b.foldl step (exec a) := by simp [exec]

theorem deliver_first {s : State} {i : Nat} {r : Option Nat} (hu : s.ub = false) (h : ∃ rest, s.posted = (i, r) :: rest) : .ret i r s.now ∈ (step s .deliver).log := by
  obtain ⟨rest, h⟩ := h
  unfold step
  rw [if_neg (by simp [hu])]
  simp only [h]
  unfold State.finish
  simp

/-- A new connection during the wait: the call returns that connection, whatever happens until the event loop gets to it (unless the
timeout fires before that). -/
theorem connection_of_state (ops : List Op) (i : Nat) (d : Option Nat) (h : FirstWait (exec ops) i d) (c : Nat) (mid : List Op)
    (hm : ∀ op ∈ mid, op ≠ .deliver ∧ ∀ j, op ≠ .fire j) :
    .ret i (some c) (exec (ops ++ .newConn c :: mid)).now ∈ (exec (ops ++ .newConn c :: mid ++ [.deliver])).log := by
  have hi := inv_exec (ops ++ [.newConn c])
  have hpd := (inv_exec ops).pend h.ub (by rw [h.waits]; simp)
  have e : exec (ops ++ [.newConn c]) = { exec ops with pending := [], posted := [(i, some c)], log := (exec ops).log ++ [.conn c] } := by
    rw [exec_snoc]
    unfold step
    rw [if_neg (by simp [h.ub])]
    simp only [h.fns, hpd, List.foldl_cons, List.foldl_nil]
    unfold State.functor
    simp [h.ub, h.waits, h.posted]
  have hk := mid_keeps i (some c) mid hm (exec (ops ++ [.newConn c])) (by rw [e]; exact h.ub) hi ⟨[], by rw [e]⟩ (by rw [e]; simp [h.fns, h.waits])
  rw [← exec_append] at hk
  rw [show ops ++ .newConn c :: mid = ops ++ [.newConn c] ++ mid by simp, exec_snoc]
  exact deliver_first hk.1 hk.2

/-- The server is closed during the wait: the call returns nullptr. -/
theorem close_of_state (ops : List Op) (i : Nat) (d : Option Nat) (h : FirstWait (exec ops) i d) (mid : List Op)
    (hm : ∀ op ∈ mid, op ≠ .deliver ∧ ∀ j, op ≠ .fire j) :
    .ret i none (exec (ops ++ .close :: mid)).now ∈ (exec (ops ++ .close :: mid ++ [.deliver])).log := by
  have hi := inv_exec (ops ++ [.close])
  have hpo : (exec (ops ++ [.close])).posted = [(i, none)] ∧ (exec (ops ++ [.close])).ub = false ∧ (exec (ops ++ [.close])).fns = [i] ∧
      (exec (ops ++ [.close])).waits = [⟨i, d⟩] := by
    rw [exec_snoc]
    unfold step
    rw [if_neg (by simp [h.ub])]
    simp [h.posted, h.waits, h.ub, h.fns]
  have hk := mid_keeps i none mid hm (exec (ops ++ [.close])) hpo.2.1 hi ⟨[], hpo.1⟩ (by rw [hpo.2.2.1, hpo.2.2.2]; simp)
  rw [← exec_append] at hk
  rw [show ops ++ .close :: mid = ops ++ [.close] ++ mid by simp, exec_snoc]
  exact deliver_first hk.1 hk.2

/-- The timeout passes: any waiting call whose deadline has come returns nullptr when the event loop looks at its timer. -/
theorem timeout_of_state (ops : List Op) (hu : (exec ops).ub = false) (w : Wait) (hw : w ∈ (exec ops).waits) (d : Nat) (hd : w.due = some d) (hn : d ≤ (exec ops).now) :
    .ret w.id none (exec ops).now ∈ (exec (ops ++ [.fire w.id])).log := by
  rw [exec_snoc]
  generalize exec ops = s at *
  unfold step
  rw [if_neg (by simp [hu])]
  dsimp only
  rw [if_pos (List.any_eq_true.2 ⟨w, hw, by simp [Wait.dueBy, hd, hn]⟩)]
  unfold State.finish; simp

/-- Found: once a call had to wait and has returned, the next connection is handed to the destroyed listener of that call: undefined
behaviour, and the connection is taken from the server. -/
theorem C54_after_wait_uaf (ops : List Op) (hu : (exec ops).ub = false) (i : Nat) (hwaited : .suspended i ∈ (exec ops).log)
    (hret : i ∈ rets (exec ops).log) (c : Nat) : (exec (ops ++ [.newConn c])).ub = true := by
  have hi := inv_exec ops
  rw [exec_snoc]
  generalize exec ops = s at *
  have hf : i ∈ s.fns := hi.susp i hwaited
  have hnw : ¬ ∃ w ∈ s.waits, w.id = i := by
    rintro ⟨w, hw, rfl⟩; exact hi.wret w hw hret
  unfold step
  rw [if_neg (by simp [hu])]
  dsimp only
  have hs := fold_functor s.fns { s with pending := s.pending ++ [c], log := s.log ++ [.conn c] } hu hi.fnd
  dsimp only at hs
  obtain ⟨_, _, _, _, _, _, h7, _⟩ := hs
  cases e : (s.fns.foldl State.functor { s with pending := s.pending ++ [c], log := s.log ++ [.conn c] }).ub with
  | true => rfl
  | false => exact absurd (h7.1 e i hf) hnw

/-- The first wait times out, and the connection that arrives next is undefined behaviour. -/
example : (exec [.call 5, .time 5, .fire 0, .newConn 7]).ub = true := by decide

/-- Found: a second connection that arrives before the event loop has delivered the first one is lost. -/
theorem C54_second_connection_lost : (exec [.call (-1), .newConn 1, .newConn 2, .deliver]).log =
    [.called 0 (-1) 0, .suspended 0, .conn 1, .conn 2, .ret 0 (some 1) 0, .lost 2] := by decide

/-- Found: a timeout that fires before the delivery loses the connection. -/
theorem C54_timeout_loses : (exec [.call 5, .newConn 1, .time 5, .fire 0, .deliver]).log =
    [.called 0 5 0, .suspended 0, .conn 1, .ret 0 none 5, .lost 1] := by decide

/-- Found: of two concurrent calls one returns nullptr when a connection arrives, although the server is open and no time has passed. -/
theorem C54_concurrent_null : (exec [.call (-1), .call (-1), .newConn 1, .deliver, .deliver]).log =
    [.called 0 (-1) 0, .suspended 0, .called 1 (-1) 0, .suspended 1, .conn 1, .ret 0 (some 1) 0, .ret 1 none 0] := by decide

/-- Concrete cases. -/
example : FirstWait (exec [.newConn 3, .call 7, .time 2, .call 5]) 1 (some 7) := ⟨by decide, by decide, by decide, by decide⟩
example : (exec [.newConn 3, .newConn 4, .call 7, .call 7, .call 7, .newConn 5, .time 1, .deliver]).log =
    [.conn 3, .conn 4, .called 0 7 0, .ret 0 (some 3) 0, .called 1 7 0, .ret 1 (some 4) 0, .called 2 7 0, .suspended 2, .conn 5, .ret 2 (some 5) 1] := by decide
example : let l := (exec [.call 5, .time 5, .fire 0]).log
    l.contains (.suspended 0) = true ∧ (rets l).contains 0 = true := by decide

end QCoro.WsServer
