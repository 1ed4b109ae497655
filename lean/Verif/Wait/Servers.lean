import Verif.Wait.Props
/-
Several coroutines waiting for connections of one server at the same time (property C79).

Every pending `co_await qCoro(server).waitForNewConnection(timeout)` has its own connection to `QTcpServer::newConnection`
(`qcoro/network/qcorotcpserver.cpp:37-51`); what they share is the server and its queue of pending connections.
-/
set_option linter.unusedSimpArgs false
namespace QCoro.Wait.Serve
open QCoro

/-- What happened, as the application sees it. Observations, no counterpart in /repo. -/
inductive Ev
  | called (i : Nat) (t : Int) (d : Option Server)  -- a coroutine calls `waitForNewConnection(t)` (call number `i`), the server being `d`
  | returned (i : Nat) (r : Res (Option Nat))       -- the call returns a connection or null
  | arrived (c : Nat)                               -- connection `c` becomes pending
  | emitted (x : DSig)                              -- the server emits a signal
  | passed (ms : Nat)                               -- time passes
  | destroyed                                       -- the server is destroyed
deriving DecidableEq, Repr

/-- One suspended call: the signal it waits for, the code after its wait, and its state.
A frame of `waitForNewConnection` (`qcoro/network/qcorotcpserver.cpp:37-51`). -/
structure Pending where
  h : Helper DSig Unit
  k : Cont Unit Server (Option Nat)
  st : Wait.State DSig Unit Server (Option Nat)

/-- The server and the calls on it (`none`: not made yet, or returned at once). Bookkeeping of the model, no counterpart in /repo. -/
structure State where
  dev : Option Server
  n : Nat := 0
  rds : Nat → Option Pending := fun _ => none
  log : List Ev := []

/-- Choices of the environment: the server, the other code of the application, the event loop. No counterpart in /repo. -/
inductive Op
  | call (t : Int)
  | arrive (c : Nat)
  | listen (b : Bool)           -- the server starts or stops listening
  | sig (x : DSig) (cross : Bool)
  | gone
  | time (ms : Nat)
  | handler (i : Nat)           -- (no effect: there is no helper object)
  | deliver (i : Nat)           -- the event loop delivers the next posted signal to call `i`
  | fire (i : Nat)              -- the event loop notices that the timeout timer of call `i` is due
deriving DecidableEq

/-- One step of one call. Qt's event loop around `qcoro/network/qcorotcpserver.cpp:46`. -/
def Pending.step (p : Pending) (op : Wait.Op DSig Server) : Pending := { p with st := Wait.step p.h p.k p.st op }

/-- All calls see what happens to the server. They share it through `mServer` (`qcoro/network/qcorotcpserver.h:62`). -/
def State.tell (s : State) (op : Wait.Op DSig Server) : Nat → Option Pending := fun j => (s.rds j).map (·.step op)

/-- The calls other than `i` see the server as call `i` left it. The same. -/
def State.tellOthers (s : State) (i : Nat) (p : Pending) : Nat → Option Pending := fun j =>
  if j = i then some p
  else match p.st.dev with
    | some d => (s.rds j).map (·.step (.dev d))
    | none => s.rds j

/-- A coroutine calls `waitForNewConnection(t)` (`qcoro/network/qcorotcpserver.cpp:37-46`). -/
def State.call (s : State) (t : Int) : State :=
  match waitForNewConnection s.dev with
  | .ret r d' =>
    let s1 : State := { s with n := s.n + 1, log := s.log ++ [.called s.n t s.dev, .returned s.n r] }
    match d' with
    | some d => { s1 with dev := some d, rds := s.tell (.dev d) }
    | none => s1
  | .wait h k =>
    match s.dev with
    | none => s   -- not reached: a null server is dereferenced at once
    | some d => { s with n := s.n + 1, rds := upd s.rds s.n (some ⟨h, k, start t d⟩), log := s.log ++ [.called s.n t s.dev] }

/-- The event loop serves call `i`. When the call returns, it has taken what it returns from the server.
Qt's event loop around `qcoro/network/qcorotcpserver.cpp:46`, then `:47-50`. -/
def State.own (s : State) (i : Nat) (op : Wait.Op DSig Server) : State :=
  match s.rds i with
  | none => s
  | some p =>
    match p.st.out with
    | some _ => s
    | none =>
      match (p.step op).st.out with
      | none => { s with rds := upd s.rds i (some (p.step op)) }
      | some r => { s with dev := (p.step op).st.dev, rds := s.tellOthers i (p.step op), log := s.log ++ [.returned i r] }

/-- One step. Qt's event loop and server around the calls. -/
def step (s : State) : Op → State
  | .call t => s.call t
  | .arrive b =>
    match s.dev with
    | none => s
    | some d => { s with dev := some { d with pending := d.pending ++ [b] }, rds := s.tell (.dev { d with pending := d.pending ++ [b] }), log := s.log ++ [.arrived b] }
  | .listen b =>
    match s.dev with
    | none => s
    | some d => { s with dev := some { d with listening := b }, rds := s.tell (.dev { d with listening := b }) }
  | .sig x cross =>
    match s.dev with
    | none => s
    | some _ => { s with rds := s.tell (.sig x cross), log := s.log ++ [.emitted x] }
  | .gone =>
    match s.dev with
    | none => s
    | some _ => { s with dev := none, rds := s.tell .gone, log := s.log ++ [.destroyed] }
  | .time ms => { s with rds := s.tell (.time ms), log := s.log ++ [.passed ms] }
  | .handler i => s.own i .handler
  | .deliver i => s.own i .deliver
  | .fire i => s.own i .fire

/-- The server is `d` at the beginning. Bookkeeping of the model, no counterpart in /repo. -/
def exec (d : Server) (ops : List Op) : State := ops.foldl step { dev := some d }

theorem exec_snoc (d : Server) (ops : List Op) (op : Op) : exec d (ops ++ [op]) = step (exec d ops) op := by simp [exec]

/-! ### Specification -/

/-- The connections that arrived, in order. -/
def arrivals : List Ev → List Nat
  | [] => []
  | .arrived b :: l => b :: arrivals l
  | _ :: l => arrivals l
/-- The connections the calls returned, in the order in which they returned. -/
def taken : List Ev → List Nat
  | [] => []
  | .returned _ (.ok (some b)) :: l => b :: taken l
  | _ :: l => taken l
/-- Signals emitted. -/
def signals : List Ev → List DSig
  | [] => []
  | .emitted x :: l => x :: signals l
  | _ :: l => signals l
/-- Time passed. -/
def clock : List Ev → Nat
  | [] => 0
  | .passed ms :: l => ms + clock l
  | _ :: l => clock l
/-- The connections not handed out yet: those that arrived and were not returned (`b0`: pending at the beginning). -/
def rest (b0 : List Nat) (l : List Ev) : List Nat := (b0 ++ arrivals l).drop (taken l).length

/-- The call has to wait. -/
def Waits (d : Server) : Prop := d.listening = true ∧ d.pending = []

/-- Why call `i` returns `r` after the history `pre` (`b0`: the connections pending at the beginning). -/
inductive Why (b0 : List Nat) (pre : List Ev) (i : Nat) : Res (Option Nat) → Prop
  /-- at once: there is a connection; the oldest is returned -/
  | now (p : List Ev) (t : Int) (d : Server) (c : Nat) : pre = p ++ [.called i t (some d)] → d.listening = true →
      (rest b0 pre).head? = some c → Why b0 pre i (.ok (some c))
  /-- at once: the server is not listening -/
  | deaf (p : List Ev) (t : Int) (d : Server) : pre = p ++ [.called i t (some d)] → d.listening = false → Why b0 pre i (.ok none)
  /-- later: the server announced a connection since the call; the call gets the oldest of those not handed out **yet** – null if another
  call was faster -/
  | signal (p q : List Ev) (t : Int) (d : Server) : pre = p ++ .called i t (some d) :: q → Waits d →
      .newConnection ∈ signals q → .destroyed ∉ pre → Why b0 pre i (.ok (rest b0 pre).head?)
  /-- later: the timeout elapsed -/
  | timeout (p q : List Ev) (t : Int) (d : Server) : pre = p ++ .called i t (some d) :: q → Waits d →
      0 ≤ t → t ≤ clock q → Why b0 pre i (.ok none)
  /-- the server was destroyed before (undefined behaviour) -/
  | gone (p q : List Ev) (t : Int) (d : Option Server) : pre = p ++ .called i t d :: q → .destroyed ∈ pre → Why b0 pre i .nullDeref

theorem wait_eq (d : Server) (h : Waits d) : waitForNewConnection (some d) = .wait (ownSignal .newConnection) afterNewConnection :=
  waitForNewConnection_wait d h.1 h.2

/-! ### Proofs -/

@[simp] theorem arrivals_append (a b : List Ev) : arrivals (a ++ b) = arrivals a ++ arrivals b := by
  induction a with
  | nil => rfl
  | cons e a ih => cases e <;> simp [arrivals, ih]
@[simp] theorem taken_append (a b : List Ev) : taken (a ++ b) = taken a ++ taken b := by
  induction a with
  | nil => rfl
  | cons e a ih =>
    cases e with
    | returned i r =>
      cases r with
      | nullDeref => simp [taken, ih]
      | ok o => cases o <;> simp [taken, ih]
    | _ => simp [taken, ih]
@[simp] theorem signals_append (a b : List Ev) : signals (a ++ b) = signals a ++ signals b := by
  induction a with
  | nil => rfl
  | cons e a ih => cases e <;> simp [signals, ih]
@[simp] theorem clock_append (a b : List Ev) : clock (a ++ b) = clock a + clock b := by
  induction a with
  | nil => simp [clock]
  | cons e a ih => cases e <;> simp [clock, ih] ; omega

/-- Call `i` was made and has not returned: it is in the state of a single call (`run`) in an environment in which the signals, the time and
the server are those of the history since. -/
structure PInv (dev : Option Server) (log : List Ev) (i : Nat) (p : Pending) : Prop where
  ex : ∃ pre q t d ops, log = pre ++ .called i t (some d) :: q ∧ Waits d ∧ p.h = ownSignal .newConnection ∧
    p.k = afterNewConnection ∧ p.st = run p.h p.k t d ops ∧ heard ops = signals q ∧ elapsed ops = clock q ∧
    device (some d) ops = dev ∧ (∀ r, .returned i r ∉ q)

theorem PInv.tell {dev : Option Server} {log : List Ev} {i : Nat} {p : Pending} (h : PInv dev log i p) (op : Wait.Op DSig Server) (es : List Ev) (dev' : Option Server)
    (hs : signals es = if dev.isSome then heard [op] else []) (hc : clock es = elapsed [op])
    (hd : dev' = if dev.isSome then device dev [op] else none) (hr : ∀ r, .returned i r ∉ es) : PInv dev' (log ++ es) i (p.step op) := by
  obtain ⟨pre, q, t, d, ops, h1, h2, h3, h4, h5, h6, h7, h8, h9⟩ := h.ex
  have hx : exists? ops = dev.isSome := by rw [← h8, device_isSome]
  refine ⟨pre, q ++ es, t, d, ops ++ [op], by rw [h1]; simp, h2, h3, h4, ?_, ?_, ?_, ?_, ?_⟩
  · show Wait.step p.h p.k p.st op = _
    rw [h5]; exact (run_snoc _ _ _ _ _ _).symm
  · rw [heard_append, h6, hx, signals_append, hs]
  · rw [elapsed_append, h7, clock_append, hc]
  · rw [device_append, hx, h8, hd]
  · intro r hm
    rcases List.mem_append.1 hm with h | h
    · exact h9 r h
    · exact hr r h

theorem step_out_some {h : Helper DSig Unit} {k : Cont Unit Server (Option Nat)} {s : Wait.State DSig Unit Server (Option Nat)} {op} (hs : s.out ≠ none) : Wait.step h k s op = s := by
  unfold Wait.step
  rw [if_pos]
  cases ho : s.out <;> simp_all

/-- No call returns twice. -/
def Once (log : List Ev) : Prop := ∀ p q i r, log = p ++ .returned i r :: q → ∀ r', .returned i r' ∉ p
/-- The server a call is made on has the connections not handed out. -/
def Calls (b0 : List Nat) (log : List Ev) : Prop :=
  ∀ p q i t d, log = p ++ .called i t (some d) :: q → taken p ++ d.pending = b0 ++ arrivals p

theorem split_snoc {log : List Ev} {e x : Ev} {p q : List Ev} (h : log ++ [e] = p ++ x :: q) : (p = log ∧ x = e) ∨ ∃ q', log = p ++ x :: q' := by
  rcases List.append_eq_append_iff.1 h with ⟨l, e1, e2⟩ | ⟨l, e1, e2⟩
  · cases l with
    | nil => simp at e2; simp at e1; exact .inl ⟨e1, e2.1.symm⟩
    | cons a l => simp at e2
  · cases l with
    | nil => simp at e2; simp at e1; exact .inl ⟨e1.symm, e2.1⟩
    | cons a l => cases e2; exact .inr ⟨l, e1⟩

theorem Once.quiet {log : List Ev} (h : Once log) (e : Ev) (he : ∀ i r, e ≠ .returned i r) : Once (log ++ [e]) := by
  intro p q i r hs r'
  rcases split_snoc hs with ⟨_, rfl⟩ | ⟨q', h'⟩
  · exact absurd rfl (he i r)
  · exact h p q' i r h' r'
theorem Once.ret {log : List Ev} (h : Once log) (i : Nat) (r : Res (Option Nat)) (he : ∀ r, .returned i r ∉ log) : Once (log ++ [.returned i r]) := by
  intro p q j r1 hs r'
  rcases split_snoc hs with ⟨rfl, e⟩ | ⟨q', h'⟩
  · cases e; exact he r'
  · exact h p q' j r1 h' r'
theorem Calls.quiet {b0 : List Nat} {log : List Ev} (h : Calls b0 log) (e : Ev) (he : ∀ i t d, e ≠ .called i t (some d)) : Calls b0 (log ++ [e]) := by
  intro p q i t d hs
  rcases split_snoc hs with ⟨_, rfl⟩ | ⟨q', h'⟩
  · exact absurd rfl (he i t d)
  · exact h p q' i t d h'
theorem Calls.call {b0 : List Nat} {log : List Ev} (h : Calls b0 log) (i : Nat) (t : Int) (d : Server) (he : taken log ++ d.pending = b0 ++ arrivals log) :
    Calls b0 (log ++ [.called i t (some d)]) := by
  intro p q j t' d' hs
  rcases split_snoc hs with ⟨rfl, e⟩ | ⟨q', h'⟩
  · cases e; exact he
  · exact h p q' j t' d' h'

structure Inv (d0 : Server) (s : State) : Prop where
  born : ∀ i, s.n ≤ i → s.rds i = none
  pend : ∀ i p, s.rds i = some p → p.st.out = none → PInv s.dev s.log i p
  stream : ∀ d, s.dev = some d → taken s.log ++ d.pending = d0.pending ++ arrivals s.log
  lost : s.dev = none ↔ .destroyed ∈ s.log
  why : ∀ pre post i r, s.log = pre ++ .returned i r :: post → Why d0.pending pre i r
  called : ∀ i t d, .called i t d ∈ s.log → i < s.n
  returned : ∀ i r, .returned i r ∈ s.log → i < s.n ∧ ∀ p, s.rds i = some p → p.st.out ≠ none
  pre : taken s.log <+: d0.pending ++ arrivals s.log
  once : Once s.log
  calls : Calls d0.pending s.log
  back : ∀ i, i < s.n → (∀ r, .returned i r ∉ s.log) → ∃ p, s.rds i = some p ∧ p.st.out = none

theorem rest_eq {d0 d : Server} {log : List Ev} (h : taken log ++ d.pending = d0.pending ++ arrivals log) : rest d0.pending log = d.pending := by
  unfold rest; rw [← h]; simp

theorem PInv.quiet {dev : Option Server} {log : List Ev} {i : Nat} {p : Pending} (h : PInv dev log i p) (h0 : p.st.out = none) {op : Wait.Op DSig Server}
    (ho : op ≠ .deliver ∧ op ≠ .fire) : (p.step op).st.out = none := by
  obtain ⟨pre, q, t, d, ops, h1, h2, h3, h4, h5, h6, h7, h8, h9⟩ := h.ex
  show (Wait.step p.h p.k p.st op).out = none
  rw [h5] at h0 ⊢
  rw [← run_snoc]
  cases hx : (run p.h p.k t d (ops ++ [op])).out with
  | none => rfl
  | some x =>
    obtain ⟨v, _, _, e3⟩ := returns _ _ t d ops op h0 hx
    cases v with
    | some u => exact absurd e3.1 ho.1
    | none => exact absurd e3.2.2.1 ho.2

/-- The environment does something to the server. -/
theorem Inv.told {d0 : Server} {s : State} (h : Inv d0 s) (op : Wait.Op DSig Server) (es : List Ev) (dev' : Option Server) (n' : Nat)
    (ho : op ≠ .deliver ∧ op ≠ .fire)
    (hs : signals es = if s.dev.isSome then heard [op] else []) (hc : clock es = elapsed [op])
    (hd : dev' = if s.dev.isSome then device s.dev [op] else none)
    (hst : ∀ d, dev' = some d → taken (s.log ++ es) ++ d.pending = d0.pending ++ arrivals (s.log ++ es))
    (hl : dev' = none ↔ .destroyed ∈ s.log ++ es)
    (hp : taken (s.log ++ es) <+: d0.pending ++ arrivals (s.log ++ es)) (hon : Once (s.log ++ es)) (hca : Calls d0.pending (s.log ++ es))
    (hq : (n' = s.n ∧ (∀ i r, .returned i r ∉ es) ∧ ∀ i t d, .called i t d ∉ es) ∨
      ∃ t d r, n' = s.n + 1 ∧ es = [.called s.n t d, .returned s.n r] ∧ Why d0.pending (s.log ++ [.called s.n t d]) s.n r) :
    Inv d0 { dev := dev', n := n', rds := s.tell op, log := s.log ++ es } := by
  have hnn : s.n ≤ n' := by rcases hq with ⟨rfl, _⟩ | ⟨_, _, _, rfl, _⟩ <;> omega
  have hre : ∀ i r, i < s.n → .returned i r ∉ es := by
    intro i r hi hm
    rcases hq with ⟨_, h2, _⟩ | ⟨_, _, _, _, rfl, _⟩
    · exact h2 i r hm
    · simp at hm; omega
  have hlt : ∀ i p, s.rds i = some p → i < s.n := by
    intro i p hp
    by_cases hi : i < s.n
    · exact hi
    · rw [h.born i (by omega)] at hp; cases hp
  have hout : ∀ i p, s.rds i = some p → ((p.step op).st.out = none ↔ p.st.out = none) := by
    intro i p hp
    constructor
    · intro h1
      cases h2 : p.st.out with
      | none => rfl
      | some x =>
        have : Wait.step p.h p.k p.st op = p.st := step_out_some (by simp [h2])
        have e : (p.step op).st = p.st := this
        rw [e, h2] at h1; cases h1
    · intro h1; exact (h.pend i p hp h1).quiet h1 ho
  constructor
  · intro i hi
    show (s.rds i).map _ = none
    rw [h.born i (by dsimp only at hi; omega)]; rfl
  · intro i p hp h0
    obtain ⟨p0, hp0, rfl⟩ : ∃ p0, s.rds i = some p0 ∧ p0.step op = p := by simpa [State.tell] using hp
    exact (h.pend i p0 hp0 ((hout i p0 hp0).1 h0)).tell op es dev' hs hc hd (fun r => hre i r (hlt i p0 hp0))
  · exact hst
  · exact hl
  · intro pre post i r e
    rcases hq with ⟨_, h2, _⟩ | ⟨t, d, r', _, rfl, hw⟩
    · rcases List.append_eq_append_iff.1 e with ⟨l, e1, e2⟩ | ⟨l, e1, e2⟩
      · exact absurd (show Ev.returned i r ∈ es by rw [e2]; simp) (h2 i r)
      · cases l with
        | nil =>
          simp at e2
          exact absurd (show Ev.returned i r ∈ es by rw [← e2]; simp) (h2 i r)
        | cons a l => cases e2; exact h.why pre l i r e1
    · rcases List.append_eq_append_iff.1 e with ⟨l, e1, e2⟩ | ⟨l, e1, e2⟩
      · cases l with
        | nil => simp at e2
        | cons a l =>
          cases l with
          | nil => simp at e2; obtain ⟨rfl, ⟨rfl, rfl⟩, rfl⟩ := e2; rw [e1]; exact hw
          | cons b l => simp at e2
      · cases l with
        | nil => simp at e2
        | cons a l => cases e2; exact h.why pre l i r e1
  · intro i t d hm
    rcases List.mem_append.1 hm with hm | hx
    · have := h.called i t d hm; dsimp only; omega
    · rcases hq with ⟨_, _, h3⟩ | ⟨_, _, _, rfl, rfl, _⟩
      · exact absurd hx (h3 i t d)
      · simp at hx; have := hx.1; dsimp only; omega
  · intro i r hm
    rcases List.mem_append.1 hm with hm | hx
    · obtain ⟨h1, h2⟩ := h.returned i r hm
      refine ⟨by dsimp only; omega, ?_⟩
      intro p hp
      obtain ⟨p0, hp0, rfl⟩ : ∃ p0, s.rds i = some p0 ∧ p0.step op = p := by simpa [State.tell] using hp
      rw [Ne, hout i p0 hp0]; exact h2 p0 hp0
    · rcases hq with ⟨_, h3, _⟩ | ⟨_, _, _, rfl, rfl, _⟩
      · exact absurd hx (h3 i r)
      · simp at hx
        have hx := hx.1
        refine ⟨by dsimp only; omega, ?_⟩
        intro p hp
        obtain ⟨p0, hp0, rfl⟩ : ∃ p0, s.rds i = some p0 ∧ p0.step op = p := by simpa [State.tell] using hp
        have := hlt i p0 hp0; omega
  · exact hp
  · exact hon
  · exact hca
  · intro i hi hr
    by_cases hi' : i < s.n
    · obtain ⟨p, hp, h0⟩ := h.back i hi' (fun r hm => hr r (List.mem_append_left _ hm))
      exact ⟨p.step op, by simp [State.tell, hp], (hout i p hp).2 h0⟩
    · rcases hq with ⟨rfl, _⟩ | ⟨_, _, r, rfl, rfl, _⟩
      · exact absurd hi hi'
      · have : i = s.n := by dsimp only at hi; omega
        subst this
        exact absurd (show Ev.returned s.n r ∈ s.log ++ _ by simp) (hr r)

theorem Inv.own {d0 : Server} {s : State} (h : Inv d0 s) (i : Nat) (op : Wait.Op DSig Server) (ho : op = .handler ∨ op = .deliver ∨ op = .fire) : Inv d0 (s.own i op) := by
  unfold State.own
  cases hp : s.rds i with
  | none => exact h
  | some p =>
    dsimp only
    cases h0 : p.st.out with
    | some x => exact h
    | none =>
      dsimp only
      have P := h.pend i p hp h0
      have hi : i < s.n := by
        by_cases hi : i < s.n
        · exact hi
        · rw [h.born i (by omega)] at hp; cases hp
      have heq : heard [op] = [] ∧ elapsed [op] = 0 ∧ ∀ d, device d [op] = d := by rcases ho with rfl | rfl | rfl <;> exact ⟨rfl, rfl, fun _ => rfl⟩
      cases h1 : (p.step op).st.out with
      | none =>
        dsimp only
        have P' : PInv s.dev s.log i (p.step op) := by
          have := P.tell op [] s.dev (by rw [heq.1]; simp [signals]) (by rw [heq.2.1]; rfl) (by rw [heq.2.2]; cases s.dev <;> rfl) (by simp)
          simpa using this
        constructor
        · intro j hj
          dsimp only at hj ⊢
          rw [upd_other _ _ (by omega)]; exact h.born j hj
        · intro j p' hp' h0'
          dsimp only at hp' ⊢
          rw [upd_apply] at hp'
          by_cases hj : j = i
          · rw [if_pos hj] at hp'; cases hp'; rw [hj]; exact P'
          · rw [if_neg hj] at hp'; exact h.pend j p' hp' h0'
        · exact h.stream
        · exact h.lost
        · exact h.why
        · exact h.called
        · intro j r hm
          obtain ⟨a, b⟩ := h.returned j r hm
          refine ⟨a, ?_⟩
          intro p' hp'
          dsimp only at hp'
          rw [upd_apply] at hp'
          by_cases hj : j = i
          · subst hj; exact absurd h0 (b p hp)
          · rw [if_neg hj] at hp'; exact b p' hp'
        · exact h.pre
        · exact h.once
        · exact h.calls
        · intro j hj hr
          obtain ⟨p', hp', e⟩ := h.back j hj hr
          by_cases hji : j = i
          · subst hji; exact ⟨p.step op, by simp, h1⟩
          · exact ⟨p', by dsimp only; rw [upd_other _ _ hji]; exact hp', e⟩
      | some r =>
        dsimp only
        obtain ⟨pre, q, t, d, ops, e1, e2, e3, e4, e5, e6, e7, e8, e9⟩ := P.ex
        have hrun : (p.step op).st = run p.h p.k t d (ops ++ [op]) := by rw [run_snoc, ← e5]; rfl
        have hcall := wait_eq d e2
        have o0 : (waitForNewConnection (some d)).out t d ops = none := by
          rw [hcall]; show (run _ _ t d ops).out = none; rw [← e3, ← e4, ← e5]; exact h0
        have o1 : (waitForNewConnection (some d)).out t d (ops ++ [op]) = some r := by
          rw [hcall]; show (run _ _ t d (ops ++ [op])).out = some r; rw [← e3, ← e4, ← hrun]; exact h1
        have od : (waitForNewConnection (some d)).dev t d (ops ++ [op]) = (p.step op).st.dev := by
          rw [hcall]; show (run _ _ t d (ops ++ [op])).dev = _; rw [← e3, ← e4, ← hrun]
        have hW := C47_waits d e2.1 e2.2 t ops op r o0 o1
        rw [od, e8, e6, e7] at hW
        -- the device afterwards
        have key : Why d0.pending s.log i r ∧ ((p.step op).st.dev = none ↔ s.dev = none) ∧
            ∀ d', (p.step op).st.dev = some d' → taken (s.log ++ [.returned i r]) ++ d'.pending = d0.pending ++ arrivals (s.log ++ [.returned i r]) := by
          rcases hW with ⟨hx, hop, hs, hn⟩ | ⟨rfl, ht, hc, hd⟩
          · cases hdev : s.dev with
            | some dd =>
              obtain ⟨rfl, hd'⟩ := hs dd hdev
              have hst := h.stream dd hdev
              refine ⟨?_, by simp [hd'], ?_⟩
              · have := Why.signal (b0 := d0.pending) pre q t d e1 e2 hx (fun hm => by rw [h.lost.2 hm] at hdev; cases hdev)
                rwa [rest_eq hst] at this
              · intro d' e
                rw [hd'] at e; cases e
                rw [taken_append, arrivals_append, ← List.append_assoc, ← hst]
                cases hpd : dd.pending <;> simp [taken, arrivals, hpd]
            | none =>
              have := hn hdev
              subst this
              have hd' : (p.step op).st.dev = none := by
                obtain ⟨v, f1, f2, f3⟩ := returns _ _ t d ops op (by rw [← e5]; exact h0) (by rw [← hrun]; exact h1)
                rw [← hrun, e8, hdev, e4] at f2
                rw [f2]
                cases v <;> rfl
              exact ⟨.gone pre q t _ e1 (h.lost.1 hdev), by simp [hd'], by intro d' e; rw [hd'] at e; cases e⟩
          · refine ⟨.timeout pre q t d e1 e2 ht hc, by rw [hd], ?_⟩
            intro d' e
            rw [hd] at e
            simpa [taken, arrivals] using h.stream d' e
        obtain ⟨k1, k2, k3⟩ := key
        have hoth : ∀ j p', j ≠ i → s.tellOthers i (p.step op) j = some p' →
            ∃ p0, s.rds j = some p0 ∧ (p'.st.out = none ↔ p0.st.out = none) ∧ (p0.st.out = none → PInv (p.step op).st.dev (s.log ++ [.returned i r]) j p') := by
          intro j p' hj hp'
          unfold State.tellOthers at hp'
          rw [if_neg hj] at hp'
          cases hd : (p.step op).st.dev with
          | none =>
            rw [hd] at hp'; dsimp only at hp'
            refine ⟨p', hp', Iff.rfl, fun ho' => ?_⟩
            obtain ⟨pre', q', t', d', ops', g1, g2, g3, g4, g5, g6, g7, g8, g9⟩ := (h.pend j p' hp' ho').ex
            refine ⟨pre', q' ++ [.returned i r], t', d', ops', by rw [g1]; simp, g2, g3, g4, g5, by simp [g6, signals], by simp [g7, clock], by rw [g8]; exact k2.1 hd, ?_⟩
            intro r' hm
            rcases List.mem_append.1 hm with hm | hm
            · exact g9 r' hm
            · simp at hm; exact hj hm.1
          | some dd =>
            rw [hd] at hp'; dsimp only at hp'
            obtain ⟨p0, hp0, rfl⟩ : ∃ p0, s.rds j = some p0 ∧ p0.step (.dev dd) = p' := by simpa using hp'
            have hsd : s.dev.isSome = true := by
              cases hs : s.dev with
              | none => rw [k2.2 hs] at hd; cases hd
              | some _ => rfl
            refine ⟨p0, hp0, ?_, ?_⟩
            · constructor
              · intro h1'
                cases h2' : p0.st.out with
                | none => rfl
                | some x =>
                  have : Wait.step p0.h p0.k p0.st (.dev dd) = p0.st := step_out_some (by simp [h2'])
                  have e : (p0.step (.dev dd)).st = p0.st := this
                  rw [e, h2'] at h1'; cases h1'
              · intro h1'; exact (h.pend j p0 hp0 h1').quiet h1' (by simp)
            · intro ho'
              exact (h.pend j p0 hp0 ho').tell (.dev dd) _ _ (by simp [signals, heard]) (by simp [clock, elapsed]) (by rw [hsd]; rfl)
                (by intro r' hm; simp at hm; exact hj hm.1)
        constructor
        · intro j hj
          dsimp only at hj ⊢
          unfold State.tellOthers
          rw [if_neg (by omega), h.born j hj]
          cases (p.step op).st.dev <;> rfl
        · intro j p' hp' h0'
          dsimp only at hp' ⊢
          by_cases hj : j = i
          · unfold State.tellOthers at hp'
            rw [if_pos hj] at hp'; cases hp'; rw [h1] at h0'; cases h0'
          · obtain ⟨p0, hp0, a, b⟩ := hoth j p' hj hp'
            exact b (a.1 h0')
        · exact k3
        · dsimp only
          rw [k2, h.lost]; simp
        · intro pre' post' i' r' e
          dsimp only at e
          rcases List.append_eq_append_iff.1 e with ⟨l, g1, g2⟩ | ⟨l, g1, g2⟩
          · cases l with
            | nil => simp at g2; obtain ⟨⟨rfl, rfl⟩, rfl⟩ := g2; rw [g1]; simpa using k1
            | cons a l => simp at g2
          · cases l with
            | nil => simp at g2; obtain ⟨⟨rfl, rfl⟩, rfl⟩ := g2; simp at g1; rw [← g1]; exact k1
            | cons a l => cases g2; exact h.why pre' l i' r' g1
        · intro i' t' d' hm
          rcases List.mem_append.1 hm with hm | hm
          · exact h.called i' t' d' hm
          · simp at hm
        · intro j r' hm
          have hj' : j = i ∨ (j ≠ i ∧ .returned j r' ∈ s.log) := by
            rcases List.mem_append.1 hm with hm | hm
            · by_cases hj : j = i
              · exact .inl hj
              · exact .inr ⟨hj, hm⟩
            · simp at hm; exact .inl hm.1
          rcases hj' with rfl | ⟨hj, hm⟩
          · refine ⟨hi, ?_⟩
            intro p' hp'
            dsimp only at hp'
            unfold State.tellOthers at hp'
            rw [if_pos rfl] at hp'; cases hp'; simp [h1]
          · obtain ⟨a, b⟩ := h.returned j r' hm
            refine ⟨a, ?_⟩
            intro p' hp'
            obtain ⟨p0, hp0, a', _⟩ := hoth j p' hj hp'
            rw [Ne, a']; exact b p0 hp0
        · dsimp only
          cases hd : (p.step op).st.dev with
          | some d' => exact ⟨d'.pending, k3 d' hd⟩
          | none =>
            have : taken [Ev.returned i r] = [] := by
              rcases hW with ⟨_, _, _, hn⟩ | ⟨rfl, _⟩
              · rw [hn (k2.1 hd)]; rfl
              · rfl
            rw [taken_append, this]
            simpa [arrivals] using h.pre
        · exact h.once.ret i r (fun r' hm => (h.returned i r' hm).2 p hp h0)
        · exact h.calls.quiet _ (by simp)
        · intro j hj hr
          have hji : j ≠ i := by rintro rfl; exact hr r (by simp)
          obtain ⟨p', hp', e⟩ := h.back j hj (fun r' hm => hr r' (List.mem_append_left _ hm))
          dsimp only
          have : ∃ p2, s.tellOthers i (p.step op) j = some p2 := by
            unfold State.tellOthers
            rw [if_neg hji, hp']
            cases (p.step op).st.dev <;> simp
          obtain ⟨p2, hp2⟩ := this
          obtain ⟨p0, hp0, a', _⟩ := hoth j p2 hji hp2
          rw [hp'] at hp0; cases hp0
          exact ⟨p2, hp2, a'.2 e⟩

theorem Inv.call {d0 : Server} {s : State} (h : Inv d0 s) (t : Int) : Inv d0 (s.call t) := by
  unfold State.call
  cases hdev : s.dev with
  | none =>
    have e : waitForNewConnection none = .ret .nullDeref none := rfl
    rw [e]
    dsimp only
    have hlost : Ev.destroyed ∈ s.log := h.lost.1 hdev
    have w : Why d0.pending (s.log ++ [.called s.n t none]) s.n .nullDeref := .gone s.log [] t none rfl (List.mem_append_left _ hlost)
    constructor
    · intro i hi; exact h.born i (by dsimp only at hi; omega)
    · intro i p hp h0
      have hi : i < s.n := by
        by_cases hi : i < s.n
        · exact hi
        · dsimp only at hp; rw [h.born i (by omega)] at hp; cases hp
      obtain ⟨pre', q', t', d', ops', g1, g2, g3, g4, g5, g6, g7, g8, g9⟩ := (h.pend i p hp h0).ex
      refine ⟨pre', q' ++ [.called s.n t none, .returned s.n .nullDeref], t', d', ops', by dsimp only; rw [g1]; simp, g2, g3, g4, g5, by simp [g6, signals], by simp [g7, clock], by dsimp only; rw [g8, hdev], ?_⟩
      intro r' hm
      rcases List.mem_append.1 hm with hm | hm
      · exact g9 r' hm
      · simp at hm; have := hm.1; omega
    · intro d hd; cases hd
    · dsimp only; simp [hdev, hlost]
    · intro pre post i r e
      dsimp only at e
      rcases List.append_eq_append_iff.1 e with ⟨l, e1, e2⟩ | ⟨l, e1, e2⟩
      · cases l with
        | nil => simp at e2
        | cons a l =>
          cases l with
          | nil => simp at e2; obtain ⟨rfl, ⟨rfl, rfl⟩, rfl⟩ := e2; rw [e1]; exact w
          | cons b l => simp at e2
      · cases l with
        | nil => simp at e2
        | cons a l => cases e2; exact h.why pre l i r e1
    · intro i t' d' hm
      rcases List.mem_append.1 hm with hm | hx
      · have := h.called i t' d' hm; dsimp only; omega
      · simp at hx; have := hx.1; dsimp only; omega
    · intro i r hm
      rcases List.mem_append.1 hm with hm | hx
      · obtain ⟨a, b⟩ := h.returned i r hm
        exact ⟨by dsimp only; omega, b⟩
      · simp at hx
        have hx := hx.1
        refine ⟨by dsimp only; omega, ?_⟩
        intro p hp; dsimp only at hp; rw [h.born i (by omega)] at hp; cases hp
    · simpa [taken, arrivals] using h.pre
    · have h1 := (h.once.quiet (.called s.n t none) (by simp)).ret s.n .nullDeref (by
        intro r hm
        rcases List.mem_append.1 hm with hm | hm
        · have := (h.returned s.n r hm).1; omega
        · simp at hm)
      simpa using h1
    · have h1 := (h.calls.quiet (.called s.n t none) (by simp)).quiet (.returned s.n .nullDeref) (by simp)
      simpa using h1
    · intro i hi hr
      by_cases hi' : i < s.n
      · exact h.back i hi' (fun r hm => hr r (List.mem_append_left _ hm))
      · have : i = s.n := by dsimp only at hi; omega
        subst this
        exact absurd (by simp) (hr .nullDeref)
  | some d =>
    have hst := h.stream d hdev
    have hnl : Ev.destroyed ∉ s.log := fun hm => by rw [h.lost.2 hm] at hdev; cases hdev
    have hrest : rest d0.pending (s.log ++ [.called s.n t (some d)]) = d.pending := rest_eq (by simpa [taken, arrivals] using hst)
    have imm : ∀ l d', Why d0.pending (s.log ++ [.called s.n t (some d)]) s.n (.ok l) → l.toList ++ d'.pending = d.pending →
        waitForNewConnection (some d) = .ret (.ok l) (some d') →
        Inv d0 { dev := some d', n := s.n + 1, rds := s.tell (.dev d'), log := s.log ++ [.called s.n t (some d), .returned s.n (.ok l)] } := by
      intro l d' hw hl _
      refine h.told (.dev d') [.called s.n t (some d), .returned s.n (.ok l)] (some d') (s.n + 1) (by simp) (by simp [signals, heard]) rfl (by rw [hdev]; rfl) ?_ ?_ ?_ ?_ ?_
        (.inr ⟨t, some d, .ok l, rfl, rfl, hw⟩)
      · intro dd e; cases e; rw [taken_append, arrivals_append, ← List.append_assoc, ← hst, ← hl]; cases l <;> simp [taken, arrivals]
      · simp [hnl]
      · exact ⟨d'.pending, by rw [taken_append, arrivals_append, ← List.append_assoc, ← hst, ← hl]; cases l <;> simp [taken, arrivals]⟩
      · have h1 := (h.once.quiet (.called s.n t (some d)) (by simp)).ret s.n (.ok l) (by
          intro r hm
          rcases List.mem_append.1 hm with hm | hm
          · have := (h.returned s.n r hm).1; omega
          · simp at hm)
        simpa using h1
      · have h1 := (h.calls.call s.n t d hst).quiet (.returned s.n (.ok l)) (by simp)
        simpa using h1
    by_cases hre : d.listening = true
    · by_cases hw : d.pending = []
      · rw [wait_eq d ⟨hre, hw⟩]
        dsimp only
        constructor
        · intro i hi; dsimp only at hi ⊢; rw [upd_other _ _ (by omega)]; exact h.born i (by omega)
        · intro i p hp h0
          dsimp only at hp ⊢
          rw [upd_apply] at hp
          by_cases hi : i = s.n
          · rw [if_pos hi] at hp; cases hp
            rw [hi]
            exact ⟨s.log, [], t, d, [], rfl, ⟨hre, hw⟩, rfl, rfl, rfl, rfl, rfl, rfl, by simp⟩
          · rw [if_neg hi] at hp
            obtain ⟨pre', q', t', d', ops', g1, g2, g3, g4, g5, g6, g7, g8, g9⟩ := (h.pend i p hp h0).ex
            exact ⟨pre', q' ++ [.called s.n t (some d)], t', d', ops', by rw [g1]; simp, g2, g3, g4, g5, by simp [g6, signals], by simp [g7, clock], by rw [g8, hdev], by
              intro r' hm
              rcases List.mem_append.1 hm with hm | hm
              · exact g9 r' hm
              · simp at hm⟩
        · intro dd e; dsimp only at e ⊢; cases e; simpa [taken, arrivals] using hst
        · simp [hnl]
        · intro pre post i r e
          dsimp only at e
          rcases List.append_eq_append_iff.1 e with ⟨l, e1, e2⟩ | ⟨l, e1, e2⟩
          · cases l with
            | nil => simp at e2
            | cons a l => simp at e2
          · cases l with
            | nil => simp at e2
            | cons a l => cases e2; exact h.why pre l i r e1
        · intro i t' d' hm
          rcases List.mem_append.1 hm with hm | hx
          · have := h.called i t' d' hm; dsimp only; omega
          · simp at hx; have := hx.1; dsimp only; omega
        · intro i r hm
          rcases List.mem_append.1 hm with hm | hx
          · obtain ⟨a, b⟩ := h.returned i r hm
            refine ⟨by dsimp only; omega, ?_⟩
            intro p hp; dsimp only at hp; rw [upd_other _ _ (by omega)] at hp; exact b p hp
          · simp at hx
        · simpa [taken, arrivals] using h.pre
        · exact h.once.quiet _ (by simp)
        · exact h.calls.call _ _ _ hst
        · intro i hi hr
          by_cases hi' : i < s.n
          · obtain ⟨p, hp, e⟩ := h.back i hi' (fun r hm => hr r (List.mem_append_left _ hm))
            exact ⟨p, by dsimp only; rw [upd_other _ _ (by omega)]; exact hp, e⟩
          · have : i = s.n := by dsimp only at hi; omega
            subst this
            exact ⟨_, upd_same _ _ _, rfl⟩
      · obtain ⟨x, xs, hx⟩ := List.exists_cons_of_ne_nil hw
        have e : waitForNewConnection (some d) = .ret (.ok (some x)) (some { d with pending := xs }) := by
          unfold waitForNewConnection; simp [hre, hx, Server.next]
        have := imm (some x) { d with pending := xs } (.now s.log t d x rfl hre (by rw [hrest, hx]; rfl)) (by simp [hx]) e
        rw [e]; exact this
    · have hre : d.listening = false := by simpa using hre
      have e : waitForNewConnection (some d) = .ret (.ok none) (some d) := by unfold waitForNewConnection; simp [hre]
      have := imm none d (.deaf s.log t d rfl hre) (by simp) e
      rw [e]; exact this

theorem inv_step {d0 : Server} {s : State} (h : Inv d0 s) (op : Op) : Inv d0 (step s op) := by
  cases op with
  | call t => exact h.call t
  | handler i => exact h.own i _ (.inl rfl)
  | deliver i => exact h.own i _ (.inr (.inl rfl))
  | fire i => exact h.own i _ (.inr (.inr rfl))
  | time ms =>
    refine h.told (.time ms) [.passed ms] s.dev s.n (by simp) (by simp [signals, heard]) (by simp [clock, elapsed]) (by cases s.dev <;> rfl) ?_ ?_ ?_ (h.once.quiet _ (by simp)) (h.calls.quiet _ (by simp)) (.inl ⟨rfl, by simp, by simp⟩)
    · intro d hd; simpa [taken, arrivals] using h.stream d hd
    · rw [h.lost]; simp
    · simpa [taken, arrivals] using h.pre
  | arrive b =>
    unfold step
    cases hdev : s.dev with
    | none => exact h
    | some d =>
      have hnl : Ev.destroyed ∉ s.log := fun hm => by rw [h.lost.2 hm] at hdev; cases hdev
      refine h.told (.dev { d with pending := d.pending ++ [b] }) [.arrived b] _ s.n (by simp) (by simp [signals, heard]) rfl (by rw [hdev]; rfl) ?_ ?_ ?_ (h.once.quiet _ (by simp)) (h.calls.quiet _ (by simp)) (.inl ⟨rfl, by simp, by simp⟩)
      · intro d' e; cases e
        have := h.stream d hdev
        simp [taken, arrivals, ← List.append_assoc, this]
      · simp [hnl]
      · exact ⟨d.pending ++ [b], by have := h.stream d hdev; simp [taken, arrivals, ← List.append_assoc, this]⟩
  | listen b =>
    unfold step
    cases hdev : s.dev with
    | none => exact h
    | some d =>
      have hnl : Ev.destroyed ∉ s.log := fun hm => by rw [h.lost.2 hm] at hdev; cases hdev
      have := h.told (.dev { d with listening := b }) [] (some { d with listening := b }) s.n (by simp) (by simp [signals, heard]) rfl (by rw [hdev]; rfl)
        (by intro x e; cases e; simpa [taken, arrivals] using h.stream d hdev) (by simp [hnl]) (by simpa using h.pre) (by simpa using h.once) (by simpa using h.calls) (.inl ⟨rfl, by simp, by simp⟩)
      rw [List.append_nil] at this
      exact this
  | sig x cross =>
    unfold step
    cases hdev : s.dev with
    | none => exact h
    | some d =>
      have hnl : Ev.destroyed ∉ s.log := fun hm => by rw [h.lost.2 hm] at hdev; cases hdev
      have := h.told (.sig x cross) [.emitted x] (some d) s.n (by simp) (by simp [signals, heard, hdev]) rfl (by rw [hdev]; rfl)
        (by intro x e; cases e; simpa [taken, arrivals] using h.stream d hdev) (by simp [hnl]) (by simpa [taken, arrivals] using h.pre) (h.once.quiet _ (by simp)) (h.calls.quiet _ (by simp)) (.inl ⟨rfl, by simp, by simp⟩)
      exact this
  | gone =>
    unfold step
    cases hdev : s.dev with
    | none => exact h
    | some d =>
      exact h.told .gone [.destroyed] none s.n (by simp) (by simp [signals, heard]) rfl (by rw [hdev]; rfl)
        (by intro x e; cases e) (by simp) (by simpa [taken, arrivals] using h.pre) (h.once.quiet _ (by simp)) (h.calls.quiet _ (by simp)) (.inl ⟨rfl, by simp, by simp⟩)

theorem inv_exec (d0 : Server) (ops : List Op) : Inv d0 (exec d0 ops) := by
  induction ops using snocInd with
  | nil =>
    constructor
    · intro i _; rfl
    · intro i p hp; cases hp
    · intro d e; cases e; simp [exec, taken, arrivals]
    · simp [exec]
    · intro pre post i r e; simp [exec] at e
    · intro i t d hm; simp [exec] at hm
    · intro i r hm; simp [exec] at hm
    · simp [exec, taken, arrivals]
    · intro p q i r e; simp [exec] at e
    · intro p q i t d e; simp [exec] at e
    · intro i hi; simp [exec] at hi
  | snoc l op ih => rw [exec_snoc]; exact inv_step ih op

/-! ### Properties -/

/-- However many coroutines wait for connections and in whatever order the event loop serves them: the connections they return, in the order
in which they return them, followed by those still pending, are those pending at the beginning followed by those that arrived. -/
theorem C79_no_loss (d0 : Server) (ops : List Op) (d : Server) (h : (exec d0 ops).dev = some d) :
    taken (exec d0 ops).log ++ d.pending = d0.pending ++ arrivals (exec d0 ops).log := (inv_exec d0 ops).stream d h

/-- Also if the server is destroyed, no connection is returned twice or out of order. -/
theorem C79_no_dup (d0 : Server) (ops : List Op) : taken (exec d0 ops).log <+: d0.pending ++ arrivals (exec d0 ops).log := (inv_exec d0 ops).pre

/-- Each call returns only for the reasons it would have if it were alone, and takes from what is there when it returns. -/
theorem C79_why (d0 : Server) (ops : List Op) (pre post : List Ev) (i : Nat) (r : Res (Option Nat))
    (h : (exec d0 ops).log = pre ++ .returned i r :: post) : Why d0.pending pre i r := (inv_exec d0 ops).why pre post i r h

/-- Each call returns at most once. -/
theorem C79_once (d0 : Server) (ops : List Op) (pre post : List Ev) (i : Nat) (r r' : Res (Option Nat))
    (h : (exec d0 ops).log = pre ++ .returned i r :: post) : .returned i r' ∉ pre := (inv_exec d0 ops).once pre post i r h r'

/-- Call `i` was made with timeout `t` on the server `d`, `q` happened since, and it has not returned. -/
def Waiting (log : List Ev) (i : Nat) (t : Int) (d : Server) (q : List Ev) : Prop :=
  ∃ p, log = p ++ .called i t (some d) :: q ∧ ∀ r, .returned i r ∉ log

theorem log_own (s : State) (i : Nat) (op : Wait.Op DSig Server) : (s.own i op).log = s.log ∨ ∃ r, (s.own i op).log = s.log ++ [.returned i r] := by
  unfold State.own
  cases s.rds i with
  | none => exact .inl rfl
  | some p =>
    dsimp only
    cases p.st.out with
    | some x => exact .inl rfl
    | none =>
      dsimp only
      cases (p.step op).st.out with
      | none => exact .inl rfl
      | some r => exact .inr ⟨r, rfl⟩

theorem log_call (s : State) (t : Int) : (s.call t).log = s.log ∨ (s.call t).log = s.log ++ [.called s.n t s.dev] ∨
    ∃ r, (s.call t).log = s.log ++ [.called s.n t s.dev] ++ [.returned s.n r] := by
  unfold State.call
  cases waitForNewConnection s.dev with
  | ret r d' =>
    dsimp only
    cases d' with
    | none => exact .inr (.inr ⟨r, by simp⟩)
    | some d => exact .inr (.inr ⟨r, by simp⟩)
  | wait h k =>
    dsimp only
    cases hd : s.dev with
    | none => exact .inl rfl
    | some d => exact .inr (.inl rfl)

theorem log_step (s : State) (op : Op) : (step s op).log = s.log ∨ (∃ e, (step s op).log = s.log ++ [e] ∧ ∀ i t d, e = .called i t d → i = s.n) ∨
    ∃ t d r, (step s op).log = s.log ++ [.called s.n t d] ++ [.returned s.n r] := by
  have own : ∀ i w, (s.own i w).log = s.log ∨ ∃ e, (s.own i w).log = s.log ++ [e] ∧ ∀ j t d, e = .called j t d → j = s.n := by
    intro i w
    rcases log_own s i w with h | ⟨r, h⟩
    · exact .inl h
    · exact .inr ⟨_, h, by intro j t d e; cases e⟩
  cases op with
  | handler i => exact (own i .handler).imp id .inl
  | deliver i => exact (own i .deliver).imp id .inl
  | fire i => exact (own i .fire).imp id .inl
  | time ms => exact .inr (.inl ⟨_, rfl, by intro j t d e; cases e⟩)
  | arrive b => unfold step; cases s.dev with
    | none => exact .inl rfl
    | some d => exact .inr (.inl ⟨_, rfl, by intro j t d e; cases e⟩)
  | listen b => unfold step; cases s.dev with
    | none => exact .inl rfl
    | some d => exact .inl rfl
  | sig x c => unfold step; cases s.dev with
    | none => exact .inl rfl
    | some d => exact .inr (.inl ⟨_, rfl, by intro j t d e; cases e⟩)
  | gone => unfold step; cases s.dev with
    | none => exact .inl rfl
    | some d => exact .inr (.inl ⟨_, rfl, by intro j t d e; cases e⟩)
  | call t =>
    rcases log_call s t with h | h | ⟨r, h⟩
    · exact .inl h
    · exact .inr (.inl ⟨_, h, by intro j t d e; cases e; rfl⟩)
    · exact .inr (.inr ⟨_, _, r, h⟩)

theorem called_once (d0 : Server) (ops : List Op) : ∀ p q i t d, (exec d0 ops).log = p ++ .called i t d :: q → ∀ t' d', .called i t' d' ∉ p := by
  induction ops using snocInd with
  | nil => intro p q i t d e; simp [exec] at e
  | snoc l op ih =>
    intro p q i t d e t' d' hm
    rw [exec_snoc] at e
    have I := inv_exec d0 l
    have base : ∀ x, (exec d0 l).log ++ [x] = p ++ .called i t d :: q → (∀ j t d, x = .called j t d → j = (exec d0 l).n) → False := by
      intro x hx hn
      rcases split_snoc hx with ⟨rfl, rfl⟩ | ⟨q', h⟩
      · have h1 := hn _ _ _ rfl
        have h2 := I.called _ _ _ hm
        omega
      · exact ih _ _ _ _ _ h _ _ hm
    rcases log_step (exec d0 l) op with h | ⟨x, h, hn⟩ | ⟨t1, d1, r1, h⟩
    · rw [h] at e; exact ih _ _ _ _ _ e _ _ hm
    · rw [h] at e; exact base x e hn
    · rw [h] at e
      rcases split_snoc e with ⟨_, h⟩ | ⟨q', h⟩
      · cases h
      · rcases split_snoc h with ⟨rfl, h'⟩ | ⟨q2, h'⟩
        · have h2 := I.called _ _ _ hm
          cases h'; omega
        · exact ih _ _ _ _ _ h' _ _ hm

theorem split_unique {log p q p' q' : List Ev} {x y : Ev} (h1 : log = p ++ x :: q) (h2 : log = p' ++ y :: q') (hx : x ∉ p') (hy : y ∉ p) : p = p' ∧ x = y ∧ q = q' := by
  rw [h1] at h2
  rcases List.append_eq_append_iff.1 h2 with ⟨l, e1, e2⟩ | ⟨l, e1, e2⟩
  · cases l with
    | nil => simp at e1 e2; exact ⟨e1.symm, e2.1, e2.2⟩
    | cons a l => simp at e2; exact absurd (by rw [e1]; simp [e2.1]) hx
  · cases l with
    | nil => simp at e1 e2; exact ⟨e1, e2.1.symm, e2.2.symm⟩
    | cons a l => simp at e2; exact absurd (by rw [e1]; simp [e2.1]) hy

theorem waiting_pending {d0 : Server} {ops : List Op} {i : Nat} {t : Int} {d : Server} {q : List Ev} (h : Waiting (exec d0 ops).log i t d q) :
    ∃ (p0 : Pending) (vops : List (Wait.Op DSig Server)), (exec d0 ops).rds i = some p0 ∧ p0.st.out = none ∧ Waits d ∧ p0.h = ownSignal .newConnection ∧
      p0.k = afterNewConnection ∧ p0.st = run p0.h p0.k t d vops ∧ heard vops = signals q ∧ elapsed vops = clock q := by
  obtain ⟨p, e, hr⟩ := h
  have I := inv_exec d0 ops
  obtain ⟨p0, hp0, ho⟩ := I.back i (I.called i t (some d) (by rw [e]; simp)) hr
  obtain ⟨pre, q', t', d', vops, e1, e2, e3, e4, e5, e6, e7, e8, e9⟩ := (I.pend i p0 hp0 ho).ex
  obtain ⟨_, h2, h3⟩ := split_unique e e1 (called_once d0 ops _ _ _ _ _ e1 _ _) (called_once d0 ops _ _ _ _ _ e _ _)
  cases h2
  exact ⟨p0, vops, hp0, ho, e2, e3, e4, e5, h3 ▸ e6, h3 ▸ e7⟩

/-- Serving one call. -/
theorem serve (i : Nat) (p0 : Pending) (o : Wait.Op DSig Server) (s : State) (hp : s.rds i = some p0) (ho : p0.st.out = none) :
    (∃ r, .returned i r ∈ (s.own i o).log ∧ (p0.step o).st.out = some r) ∨
    ((s.own i o).rds i = some (p0.step o) ∧ (p0.step o).st.out = none) := by
  unfold State.own
  rw [hp]
  dsimp only
  rw [ho]
  dsimp only
  cases h : (p0.step o).st.out with
  | none => right; exact ⟨upd_same _ _ _, rfl⟩
  | some r => left; exact ⟨r, by simp, rfl⟩

theorem log_mono (s : State) (op : Op) (e : Ev) (h : e ∈ s.log) : e ∈ (step s op).log := by
  rcases log_step s op with h' | ⟨x, h', _⟩ | ⟨_, _, _, h'⟩ <;> rw [h'] <;> simp [h]

/-- The event loop serves call `i`. -/
def glob (i : Nat) : Wait.Op DSig Server → Op
  | .handler => .handler i
  | .deliver => .deliver i
  | _ => .fire i

theorem mono_fold (gl : List Op) (s : State) (e : Ev) (h : e ∈ s.log) : e ∈ (gl.foldl step s).log := by
  induction gl generalizing s with
  | nil => exact h
  | cons g gl ih => exact ih _ (log_mono s g _ h)

theorem serve_many (i : Nat) (t : Int) (d : Server) (mops : List (Wait.Op DSig Server)) (hm : ∀ m ∈ mops, m = .handler ∨ m = .deliver ∨ m = .fire)
    (p0 : Pending) (vops : List (Wait.Op DSig Server)) (s : State)
    (hp : s.rds i = some p0) (ho : p0.st.out = none) (hs : p0.st = run p0.h p0.k t d vops) :
    (∃ r, .returned i r ∈ ((mops.map (glob i)).foldl step s).log ∧ (run p0.h p0.k t d (vops ++ mops)).out = some r) ∨
    (run p0.h p0.k t d (vops ++ mops)).out = none := by
  induction mops generalizing s p0 vops with
  | nil => right; rw [List.append_nil, ← hs]; exact ho
  | cons m ml ih =>
    have e : step s (glob i m) = s.own i m := by rcases hm m (by simp) with rfl | rfl | rfl <;> rfl
    have hs' : (p0.step m).st = run p0.h p0.k t d (vops ++ [m]) := by
      show Wait.step p0.h p0.k p0.st m = _; rw [hs]; exact (run_snoc _ _ _ _ _ _).symm
    rw [List.map_cons, List.foldl_cons, e]
    rcases serve i p0 m s hp ho with ⟨r, hr, h2⟩ | ⟨h1, h2⟩
    · refine .inl ⟨r, mono_fold _ _ _ hr, ?_⟩
      rw [hs'] at h2
      rw [List.append_cons, returned_stays _ _ _ _ _ ml h2]; exact h2
    · have := ih (fun m h => hm m (by simp [h])) (p0.step m) (vops ++ [m]) (s.own i m) h1 h2 hs'
      rw [List.append_assoc] at this
      exact this

/-- A call waits, and the server announced a connection since: it returns as soon as the event loop has served it. -/
theorem C79_completes (d0 : Server) (ops : List Op) (i : Nat) (t : Int) (d : Server) (q : List Ev) (hw : Waiting (exec d0 ops).log i t d q)
    (hx : .newConnection ∈ signals q) :
    ∃ n m r, .returned i r ∈ (exec d0 (ops ++ List.replicate n (.handler i) ++ List.replicate m (.deliver i))).log := by
  obtain ⟨p0, vops, h1, h2, h3, h4, h5, h6, h7, h8⟩ := waiting_pending hw
  obtain ⟨n, m, hnm⟩ := C47_complete d h3.1 h3.2 t vops (by rw [h7]; exact hx)
  rw [wait_eq d h3] at hnm
  change ((run _ _ t d (vops ++ _ ++ _)).out).isSome = true at hnm
  rw [← h4, ← h5, List.append_assoc] at hnm
  have := serve_many i t d (List.replicate n .handler ++ List.replicate m .deliver) (by
    intro o ho
    rcases List.mem_append.1 ho with ho | ho
    · exact .inl (List.eq_of_mem_replicate ho)
    · exact .inr (.inl (List.eq_of_mem_replicate ho))) p0 vops (exec d0 ops) h1 h2 h6
  rcases this with ⟨r, hr, _⟩ | h
  · refine ⟨n, m, r, ?_⟩
    rw [List.map_append, List.map_replicate, List.map_replicate] at hr
    rw [List.append_assoc]
    show _ ∈ (List.foldl step _ _).log
    rw [List.foldl_append]; exact hr
  · rw [h] at hnm; cases hnm

/-- **No call is left waiting while a connection is pending**, if the server announces connections: the signal that told one call told all of them. -/
theorem C79_not_left_waiting (d0 : Server) (ops : List Op) (i : Nat) (t : Int) (d : Server) (q : List Ev) (hw : Waiting (exec d0 ops).log i t d q)
    (hd : rest d0.pending (exec d0 ops).log ≠ [])
    (ha : ∀ p c post, (exec d0 ops).log = p ++ .arrived c :: post → .emitted .newConnection ∈ post) :
    ∃ n m r, .returned i r ∈ (exec d0 (ops ++ List.replicate n (.handler i) ++ List.replicate m (.deliver i))).log := by
  have hw' := hw
  obtain ⟨p, e, hr⟩ := hw'
  have hwr : Waits d := by obtain ⟨_, _, _, _, h, _⟩ := waiting_pending hw; exact h
  have h1 := (inv_exec d0 ops).calls _ _ _ _ _ e
  rw [hwr.2, List.append_nil] at h1
  have harr : arrivals q ≠ [] := by
    intro h
    apply hd
    unfold rest
    rw [e]
    simp [arrivals, taken, h, ← h1]
  have hev : ∃ a b q', q = a ++ .arrived b :: q' := by
    clear hw e ha hd h1 hr
    induction q with
    | nil => exact absurd rfl harr
    | cons x q ih =>
      by_cases hx : ∃ b, x = .arrived b
      · obtain ⟨b, rfl⟩ := hx; exact ⟨[], b, q, rfl⟩
      · obtain ⟨a, b, q', h⟩ := ih (by
          intro h; apply harr
          cases x with
          | arrived b => exact absurd ⟨b, rfl⟩ hx
          | _ => exact h)
        exact ⟨x :: a, b, q', by rw [h]; rfl⟩
  obtain ⟨a, b, q', hq⟩ := hev
  have hm := ha (p ++ .called i t (some d) :: a) b q' (by rw [e, hq]; simp)
  refine C79_completes d0 ops i t d q hw ?_
  have : ∀ l : List Ev, Ev.emitted .newConnection ∈ l → DSig.newConnection ∈ signals l := by
    intro l
    induction l with
    | nil => intro h; cases h
    | cons x l ih =>
      intro h
      cases h with
      | head => simp [signals]
      | tail _ h => cases x <;> simp [signals, ih h]
  exact this q (by rw [hq]; simp [hm])

/-- The timeout of each call ends it with null, if the server still exists. -/
theorem C79_timeout (d0 : Server) (ops : List Op) (i : Nat) (t : Int) (d : Server) (q : List Ev) (hw : Waiting (exec d0 ops).log i t d q)
    (ht : 0 ≤ t) (hc : t ≤ clock q) (hl : .destroyed ∉ (exec d0 ops).log) : .returned i (.ok none) ∈ (exec d0 (ops ++ [.fire i])).log := by
  have I := inv_exec d0 ops
  obtain ⟨p, e, hr⟩ := hw
  obtain ⟨p0, hp0, ho⟩ := I.back i (I.called i t (some d) (by rw [e]; simp)) hr
  obtain ⟨pre, q', t', d', vops, e1, e2, e3, e4, e5, e6, e7, e8, e9⟩ := (I.pend i p0 hp0 ho).ex
  obtain ⟨_, h2, h3⟩ := split_unique e e1 (called_once d0 ops _ _ _ _ _ e1 _ _) (called_once d0 ops _ _ _ _ _ e _ _)
  cases h2
  have hex : exists? vops = true := by
    rw [← device_isSome d, e8]
    cases hs : (exec d0 ops).dev with
    | none => exact absurd (I.lost.1 hs) hl
    | some _ => rfl
  have hcall := wait_eq d e2
  have := C47_timeout d e2.1 e2.2 t vops (by rw [hcall]; show (run _ _ t d vops).out = none; rw [← e3, ← e4, ← e5]; exact ho) ht (by rw [e7, ← h3]; exact hc) hex
  rw [hcall] at this
  change (run _ _ t d (vops ++ _)).out = _ at this
  rw [← e3, ← e4] at this
  rcases serve_many i t d [.fire] (by simp) p0 vops (exec d0 ops) hp0 ho e5 with ⟨r, hr, h⟩ | h
  · rw [this] at h; cases h
    rw [exec_snoc]; exact hr
  · rw [this] at h; cases h

/-! ### Examples -/

/-- Two coroutines wait, two connections arrive: each gets one. -/
def demo : List Op := [.call (-1), .call 100, .arrive 7, .sig .newConnection false, .arrive 8, .sig .newConnection false, .time 3, .deliver 0, .deliver 1]
example : ((exec {} demo).log.filterMap fun | .returned i r => some (i, r) | _ => none) = [(0, .ok (some 7)), (1, .ok (some 8))] := by decide
example : Waiting (exec {} (demo.take 8)).log 1 100 {} [.arrived 7, .emitted .newConnection, .arrived 8, .emitted .newConnection, .passed 3, .returned 0 (.ok (some 7))] := by
  have e : (exec {} (demo.take 8)).log = [.called 0 (-1) (some {})] ++ .called 1 100 (some {}) ::
      [.arrived 7, .emitted .newConnection, .arrived 8, .emitted .newConnection, .passed 3, .returned 0 (.ok (some 7))] := by decide
  exact ⟨_, e, by intro r; rw [e]; simp⟩
example : rest [] (exec {} (demo.take 8)).log = [8] := by decide

/-- Found: with one connection for two waiting calls, the second returns null – before its timeout, from a listening server. -/
theorem C79_empty_handed : ∃ ops, (exec {} ops).log = [.called 0 (-1) (some {}), .called 1 (-1) (some {}), .arrived 7, .emitted .newConnection,
    .returned 0 (.ok (some 7)), .returned 1 (.ok none)] :=
  ⟨[.call (-1), .call (-1), .arrive 7, .sig .newConnection false, .deliver 0, .deliver 1], by decide⟩

end QCoro.Wait.Serve
