import Verif.Wait.Reads
/-
Several coroutines reading from one device at the same time (property C69).

Every pending `co_await device.readAll()` / `read(n)` / `readLine(n)` has its own helper object and its own connection to the
device (`qcoro/core/qcoroiodevice.cpp:57-114`, `:132-135`); what they share is the device and its read buffer.
-/
set_option linter.unusedSimpArgs false
namespace QCoro.Wait.Many
open QCoro

/-- The reading functions (`qcoro/core/qcoroiodevice.cpp:57-82`). -/
inductive RCall | all | upTo (n : Nat) | line (n : Nat)
deriving DecidableEq, Repr

/-- What Qt's function takes from the device (`qcoro/core/qcoroiodevice.cpp:63`, `:72`, `:81`). -/
def RCall.fn : RCall → Dev → List UInt8 × Dev
  | .all => Dev.readAll
  | .upTo n => Dev.read n
  | .line n => Dev.readLine n

/-- What happened, as the application sees it. Observations, no counterpart in /repo. -/
inductive Ev
  | called (i : Nat) (c : RCall) (t : Int) (d : Option Dev)  -- a coroutine makes a reading call (number `i`), the device being `d`
  | returned (i : Nat) (r : Res (List UInt8))                -- the call returns
  | arrived (b : List UInt8)                                 -- bytes arrive
  | emitted (x : DSig)                                       -- the device emits a signal
  | passed (ms : Nat)                                        -- time passes
  | destroyed                                                -- the device is destroyed
deriving DecidableEq, Repr

/-- One suspended call: its helper, the code after its wait, and its state.
A frame of `readAll`/`read`/`readLine` awaiting `waitForReadyRead` (`qcoro/core/qcoroiodevice.cpp:57-82`, `:104-114`). -/
structure Pending where
  h : Helper DSig Bool
  k : Cont Bool Dev (List UInt8)
  st : Wait.State DSig Bool Dev (List UInt8)

/-- The device and the calls on it (`none`: not made yet, or returned at once). Bookkeeping of the model, no counterpart in /repo. -/
structure State where
  dev : Option Dev
  n : Nat := 0
  rds : Nat → Option Pending := fun _ => none
  log : List Ev := []

/-- Choices of the environment: the device, the other code of the application, the event loop. No counterpart in /repo. -/
inductive Op
  | call (c : RCall) (t : Int)
  | arrive (b : List UInt8)
  | change (d : Dev)            -- anything about the device changes but its data
  | sig (x : DSig) (cross : Bool)
  | gone
  | time (ms : Nat)
  | handler (i : Nat)           -- the event loop delivers the next posted handler call of the helper of call `i`
  | deliver (i : Nat)           -- … the next posted result to call `i`
  | fire (i : Nat)              -- the event loop notices that the timeout timer of call `i` is due
deriving DecidableEq

/-- One step of one call. Qt's event loop around `qcoro/core/qcoroiodevice.cpp:104-114`. -/
def Pending.step (p : Pending) (op : Wait.Op DSig Dev) : Pending := { p with st := Wait.step p.h p.k p.st op }

/-- All calls see what happens to the device. They share it through `mDevice` (`qcoro/core/qcoroiodevice.h:236`). -/
def State.tell (s : State) (op : Wait.Op DSig Dev) : Nat → Option Pending := fun j => (s.rds j).map (·.step op)

/-- The calls other than `i` see the device as call `i` left it. The same. -/
def State.tellOthers (s : State) (i : Nat) (p : Pending) : Nat → Option Pending := fun j =>
  if j = i then some p
  else match p.st.dev with
    | some d => (s.rds j).map (·.step (.dev d))
    | none => s.rds j

/-- A coroutine makes a reading call (`qcoro/core/qcoroiodevice.cpp:57-82`). -/
def State.call (s : State) (c : RCall) (t : Int) : State :=
  match readWith c.fn s.dev with
  | .ret r d' =>
    let s1 : State := { s with n := s.n + 1, log := s.log ++ [.called s.n c t s.dev, .returned s.n r] }
    match d' with
    | some d => { s1 with dev := some d, rds := s.tell (.dev d) }
    | none => s1
  | .wait h k =>
    match s.dev with
    | none => s   -- not reached: a null device is dereferenced at once
    | some d => { s with n := s.n + 1, rds := upd s.rds s.n (some ⟨h, k, start t d⟩), log := s.log ++ [.called s.n c t s.dev] }

/-- The event loop serves call `i`. When the call returns, it has taken what it returns from the device.
Qt's event loop around `qcoro/core/qcoroiodevice.cpp:104-114`, then `:59-63`, `:68-72`, `:77-81`. -/
def State.own (s : State) (i : Nat) (op : Wait.Op DSig Dev) : State :=
  match s.rds i with
  | none => s
  | some p =>
    match p.st.out with
    | some _ => s
    | none =>
      match (p.step op).st.out with
      | none => { s with rds := upd s.rds i (some (p.step op)) }
      | some r => { s with dev := (p.step op).st.dev, rds := s.tellOthers i (p.step op), log := s.log ++ [.returned i r] }

/-- One step. Qt's event loop and device around the calls. -/
def step (s : State) : Op → State
  | .call c t => s.call c t
  | .arrive b =>
    match s.dev with
    | none => s
    | some d => { s with dev := some { d with buf := d.buf ++ b }, rds := s.tell (.dev { d with buf := d.buf ++ b }), log := s.log ++ [.arrived b] }
  | .change d' =>
    match s.dev with
    | none => s
    | some d => { s with dev := some { d' with buf := d.buf }, rds := s.tell (.dev { d' with buf := d.buf }) }
  | .sig x cross =>
    match s.dev with
    | none => s
    | some _ => { s with rds := s.tell (.sig x cross), log := s.log ++ [.emitted x] }
  | .gone =>
    match s.dev with
    | none => s
    | some _ => { s with dev := none, rds := s.tell .gone, log := s.log ++ [.destroyed] }
  | .time ms => { s with rds := s.tell (.time ms), log := s.log ++ [.passed ms] }
  | .handler i => s.own i .handler
  | .deliver i => s.own i .deliver
  | .fire i => s.own i .fire

/-- The device is `d` at the beginning. Bookkeeping of the model, no counterpart in /repo. -/
def exec (d : Dev) (ops : List Op) : State := ops.foldl step { dev := some d }

theorem exec_snoc (d : Dev) (ops : List Op) (op : Op) : exec d (ops ++ [op]) = step (exec d ops) op := by simp [exec]

/-! ### Specification -/

/-- Everything that arrived. -/
def arrivals : List Ev → List UInt8
  | [] => []
  | .arrived b :: l => b ++ arrivals l
  | _ :: l => arrivals l
/-- Everything the calls returned, in the order in which they returned. -/
def taken : List Ev → List UInt8
  | [] => []
  | .returned _ (.ok b) :: l => b ++ taken l
  | _ :: l => taken l
/-- Signals emitted. -/
def signals : List Ev → List DSig
  | [] => []
  | .emitted x :: l => x :: signals l
  | _ :: l => signals l
/-- Time passed. -/
def clock : List Ev → Nat
  | [] => 0
  | .passed ms :: l => ms + clock l
  | _ :: l => clock l
/-- What is there to read: what arrived and was not taken (`b0`: there at the beginning). -/
def rest (b0 : List UInt8) (l : List Ev) : List UInt8 := (b0 ++ arrivals l).drop (taken l).length

/-- What each function takes from the bytes there are. -/
def RCall.Takes : RCall → List UInt8 → List UInt8 → Prop
  | .all, b, l => l = b
  | .upTo n, b, l => l = b.take n
  | .line n, b, l => FirstLine n b l

/-- Why call `i` returns `r` after the history `pre` (`b0`: what there was to read at the beginning). -/
inductive Why (b0 : List UInt8) (pre : List Ev) (i : Nat) : Res (List UInt8) → Prop
  /-- at once: there is something to read, or nothing to wait for -/
  | now (p : List Ev) (c : RCall) (t : Int) (d : Dev) (l : List UInt8) : pre = p ++ [.called i c t (some d)] → d.readable = true →
      rest b0 pre ≠ [] ∨ ¬ waitsRead d → c.Takes (rest b0 pre) l → Why b0 pre i (.ok l)
  /-- at once: the device is not readable -/
  | unreadable (p : List Ev) (c : RCall) (t : Int) (d : Dev) : pre = p ++ [.called i c t (some d)] → d.readable = false → Why b0 pre i (.ok [])
  /-- later: a signal that ends the wait was emitted since the call; the call takes from what there is now -/
  | signal (p q : List Ev) (c : RCall) (t : Int) (d : Dev) (x : DSig) (l : List UInt8) : pre = p ++ .called i c t (some d) :: q → waitsRead d →
      x ∈ signals q → endsRead d.kind x → .destroyed ∉ pre → c.Takes (rest b0 pre) l → Why b0 pre i (.ok l)
  /-- later: the timeout elapsed -/
  | timeout (p q : List Ev) (c : RCall) (t : Int) (d : Dev) : pre = p ++ .called i c t (some d) :: q → waitsRead d →
      0 ≤ t → t ≤ clock q → Why b0 pre i (.ok [])
  /-- the device was destroyed before (undefined behaviour) -/
  | gone (p q : List Ev) (c : RCall) (t : Int) (d : Option Dev) : pre = p ++ .called i c t d :: q → .destroyed ∈ pre → Why b0 pre i .nullDeref

/-! ### Proofs -/

@[simp] theorem arrivals_append (a b : List Ev) : arrivals (a ++ b) = arrivals a ++ arrivals b := by
  induction a with
  | nil => rfl
  | cons e a ih => cases e <;> simp [arrivals, ih]
@[simp] theorem taken_append (a b : List Ev) : taken (a ++ b) = taken a ++ taken b := by
  induction a with
  | nil => rfl
  | cons e a ih =>
    cases e with
    | returned i r => cases r <;> simp [taken, ih]
    | _ => simp [taken, ih]
@[simp] theorem signals_append (a b : List Ev) : signals (a ++ b) = signals a ++ signals b := by
  induction a with
  | nil => rfl
  | cons e a ih => cases e <;> simp [signals, ih]
@[simp] theorem clock_append (a b : List Ev) : clock (a ++ b) = clock a + clock b := by
  induction a with
  | nil => simp [clock]
  | cons e a ih => cases e <;> simp [clock, ih] ; omega

theorem reader (c : RCall) : Reader c.fn := by
  cases c with
  | all => exact .all
  | upTo n => exact .upTo n
  | line n => exact .line n

theorem fn_takes (c : RCall) (d : Dev) : c.Takes d.buf (c.fn d).1 := by
  cases c with
  | all => rfl
  | upTo n => rfl
  | line n => exact readLine_firstLine n d

/-- Call `i` was made and has not returned: it is in the state of a single call (`run`) in an environment in which the signals, the time and
the device are those of the history since. -/
structure PInv (dev : Option Dev) (log : List Ev) (i : Nat) (p : Pending) : Prop where
  ex : ∃ pre q c t d ops, log = pre ++ .called i c t (some d) :: q ∧ waitsRead d ∧ p.h = readHelper d.kind ∧
    p.k = (fun r dv => afterReady c.fn (.ok r.isSome, dv)) ∧ p.st = run p.h p.k t d ops ∧ heard ops = signals q ∧ elapsed ops = clock q ∧
    device (some d) ops = dev ∧ (∀ r, .returned i r ∉ q)

theorem PInv.tell {dev : Option Dev} {log : List Ev} {i : Nat} {p : Pending} (h : PInv dev log i p) (op : Wait.Op DSig Dev) (es : List Ev) (dev' : Option Dev)
    (hs : signals es = if dev.isSome then heard [op] else []) (hc : clock es = elapsed [op])
    (hd : dev' = if dev.isSome then device dev [op] else none) (hr : ∀ r, .returned i r ∉ es) : PInv dev' (log ++ es) i (p.step op) := by
  obtain ⟨pre, q, c, t, d, ops, h1, h2, h3, h4, h5, h6, h7, h8, h9⟩ := h.ex
  have hx : exists? ops = dev.isSome := by rw [← h8, device_isSome]
  refine ⟨pre, q ++ es, c, t, d, ops ++ [op], by rw [h1]; simp, h2, h3, h4, ?_, ?_, ?_, ?_, ?_⟩
  · show Wait.step p.h p.k p.st op = _
    rw [h5]; exact (run_snoc _ _ _ _ _ _).symm
  · rw [heard_append, h6, hx, signals_append, hs]
  · rw [elapsed_append, h7, clock_append, hc]
  · rw [device_append, hx, h8, hd]
  · intro r hm
    rcases List.mem_append.1 hm with h | h
    · exact h9 r h
    · exact hr r h

theorem step_out_some {h : Helper DSig Bool} {k : Cont Bool Dev (List UInt8)} {s : Wait.State DSig Bool Dev (List UInt8)} {op} (hs : s.out ≠ none) : Wait.step h k s op = s := by
  unfold Wait.step
  rw [if_pos]
  cases ho : s.out <;> simp_all

/-- No call returns twice. -/
def Once (log : List Ev) : Prop := ∀ p q i r, log = p ++ .returned i r :: q → ∀ r', .returned i r' ∉ p
/-- The device a call is made on has what there is to read. -/
def Calls (b0 : List UInt8) (log : List Ev) : Prop :=
  ∀ p q i c t d, log = p ++ .called i c t (some d) :: q → taken p ++ d.buf = b0 ++ arrivals p

theorem split_snoc {log : List Ev} {e x : Ev} {p q : List Ev} (h : log ++ [e] = p ++ x :: q) : (p = log ∧ x = e) ∨ ∃ q', log = p ++ x :: q' := by
  rcases List.append_eq_append_iff.1 h with ⟨l, e1, e2⟩ | ⟨l, e1, e2⟩
  · cases l with
    | nil => simp at e2; simp at e1; exact .inl ⟨e1, e2.1.symm⟩
    | cons a l => simp at e2
  · cases l with
    | nil => simp at e2; simp at e1; exact .inl ⟨e1.symm, e2.1⟩
    | cons a l => cases e2; exact .inr ⟨l, e1⟩

theorem Once.quiet {log : List Ev} (h : Once log) (e : Ev) (he : ∀ i r, e ≠ .returned i r) : Once (log ++ [e]) := by
  intro p q i r hs r'
  rcases split_snoc hs with ⟨_, rfl⟩ | ⟨q', h'⟩
  · exact absurd rfl (he i r)
  · exact h p q' i r h' r'
theorem Once.ret {log : List Ev} (h : Once log) (i : Nat) (r : Res (List UInt8)) (he : ∀ r, .returned i r ∉ log) : Once (log ++ [.returned i r]) := by
  intro p q j r1 hs r'
  rcases split_snoc hs with ⟨rfl, e⟩ | ⟨q', h'⟩
  · cases e; exact he r'
  · exact h p q' j r1 h' r'
theorem Calls.quiet {b0 : List UInt8} {log : List Ev} (h : Calls b0 log) (e : Ev) (he : ∀ i c t d, e ≠ .called i c t (some d)) : Calls b0 (log ++ [e]) := by
  intro p q i c t d hs
  rcases split_snoc hs with ⟨_, rfl⟩ | ⟨q', h'⟩
  · exact absurd rfl (he i c t d)
  · exact h p q' i c t d h'
theorem Calls.call {b0 : List UInt8} {log : List Ev} (h : Calls b0 log) (i : Nat) (c : RCall) (t : Int) (d : Dev) (he : taken log ++ d.buf = b0 ++ arrivals log) :
    Calls b0 (log ++ [.called i c t (some d)]) := by
  intro p q j c' t' d' hs
  rcases split_snoc hs with ⟨rfl, e⟩ | ⟨q', h'⟩
  · cases e; exact he
  · exact h p q' j c' t' d' h'

structure Inv (d0 : Dev) (s : State) : Prop where
  born : ∀ i, s.n ≤ i → s.rds i = none
  pend : ∀ i p, s.rds i = some p → p.st.out = none → PInv s.dev s.log i p
  stream : ∀ d, s.dev = some d → taken s.log ++ d.buf = d0.buf ++ arrivals s.log
  lost : s.dev = none ↔ .destroyed ∈ s.log
  why : ∀ pre post i r, s.log = pre ++ .returned i r :: post → Why d0.buf pre i r
  called : ∀ i c t d, .called i c t d ∈ s.log → i < s.n
  returned : ∀ i r, .returned i r ∈ s.log → i < s.n ∧ ∀ p, s.rds i = some p → p.st.out ≠ none
  pre : taken s.log <+: d0.buf ++ arrivals s.log
  once : Once s.log
  calls : Calls d0.buf s.log
  back : ∀ i, i < s.n → (∀ r, .returned i r ∉ s.log) → ∃ p, s.rds i = some p ∧ p.st.out = none

theorem rest_eq {d0 d : Dev} {log : List Ev} (h : taken log ++ d.buf = d0.buf ++ arrivals log) : rest d0.buf log = d.buf := by
  unfold rest; rw [← h]; simp

theorem PInv.quiet {dev : Option Dev} {log : List Ev} {i : Nat} {p : Pending} (h : PInv dev log i p) (h0 : p.st.out = none) {op : Wait.Op DSig Dev}
    (ho : op ≠ .deliver ∧ op ≠ .fire) : (p.step op).st.out = none := by
  obtain ⟨pre, q, c, t, d, ops, h1, h2, h3, h4, h5, h6, h7, h8, h9⟩ := h.ex
  show (Wait.step p.h p.k p.st op).out = none
  rw [h5] at h0 ⊢
  rw [← run_snoc]
  cases hx : (run p.h p.k t d (ops ++ [op])).out with
  | none => rfl
  | some x =>
    obtain ⟨v, _, _, e3⟩ := returns _ _ t d ops op h0 hx
    cases v with
    | some u => exact absurd e3.1 ho.1
    | none => exact absurd e3.2.2.1 ho.2

/-- The environment does something to the device. -/
theorem Inv.told {d0 : Dev} {s : State} (h : Inv d0 s) (op : Wait.Op DSig Dev) (es : List Ev) (dev' : Option Dev) (n' : Nat)
    (ho : op ≠ .deliver ∧ op ≠ .fire)
    (hs : signals es = if s.dev.isSome then heard [op] else []) (hc : clock es = elapsed [op])
    (hd : dev' = if s.dev.isSome then device s.dev [op] else none)
    (hst : ∀ d, dev' = some d → taken (s.log ++ es) ++ d.buf = d0.buf ++ arrivals (s.log ++ es))
    (hl : dev' = none ↔ .destroyed ∈ s.log ++ es)
    (hp : taken (s.log ++ es) <+: d0.buf ++ arrivals (s.log ++ es)) (hon : Once (s.log ++ es)) (hca : Calls d0.buf (s.log ++ es))
    (hq : (n' = s.n ∧ (∀ i r, .returned i r ∉ es) ∧ ∀ i c t d, .called i c t d ∉ es) ∨
      ∃ c t d r, n' = s.n + 1 ∧ es = [.called s.n c t d, .returned s.n r] ∧ Why d0.buf (s.log ++ [.called s.n c t d]) s.n r) :
    Inv d0 { dev := dev', n := n', rds := s.tell op, log := s.log ++ es } := by
  have hnn : s.n ≤ n' := by rcases hq with ⟨rfl, _⟩ | ⟨_, _, _, _, rfl, _⟩ <;> omega
  have hre : ∀ i r, i < s.n → .returned i r ∉ es := by
    intro i r hi hm
    rcases hq with ⟨_, h2, _⟩ | ⟨_, _, _, _, _, rfl, _⟩
    · exact h2 i r hm
    · simp at hm; omega
  have hlt : ∀ i p, s.rds i = some p → i < s.n := by
    intro i p hp
    by_cases hi : i < s.n
    · exact hi
    · rw [h.born i (by omega)] at hp; cases hp
  have hout : ∀ i p, s.rds i = some p → ((p.step op).st.out = none ↔ p.st.out = none) := by
    intro i p hp
    constructor
    · intro h1
      cases h2 : p.st.out with
      | none => rfl
      | some x =>
        have : Wait.step p.h p.k p.st op = p.st := step_out_some (by simp [h2])
        have e : (p.step op).st = p.st := this
        rw [e, h2] at h1; cases h1
    · intro h1; exact (h.pend i p hp h1).quiet h1 ho
  constructor
  · intro i hi
    show (s.rds i).map _ = none
    rw [h.born i (by dsimp only at hi; omega)]; rfl
  · intro i p hp h0
    obtain ⟨p0, hp0, rfl⟩ : ∃ p0, s.rds i = some p0 ∧ p0.step op = p := by simpa [State.tell] using hp
    exact (h.pend i p0 hp0 ((hout i p0 hp0).1 h0)).tell op es dev' hs hc hd (fun r => hre i r (hlt i p0 hp0))
  · exact hst
  · exact hl
  · intro pre post i r e
    rcases hq with ⟨_, h2, _⟩ | ⟨c, t, d, r', _, rfl, hw⟩
    · rcases List.append_eq_append_iff.1 e with ⟨l, e1, e2⟩ | ⟨l, e1, e2⟩
      · exact absurd (show Ev.returned i r ∈ es by rw [e2]; simp) (h2 i r)
      · cases l with
        | nil =>
          simp at e2
          exact absurd (show Ev.returned i r ∈ es by rw [← e2]; simp) (h2 i r)
        | cons a l => cases e2; exact h.why pre l i r e1
    · rcases List.append_eq_append_iff.1 e with ⟨l, e1, e2⟩ | ⟨l, e1, e2⟩
      · cases l with
        | nil => simp at e2
        | cons a l =>
          cases l with
          | nil => simp at e2; obtain ⟨rfl, ⟨rfl, rfl⟩, rfl⟩ := e2; rw [e1]; exact hw
          | cons b l => simp at e2
      · cases l with
        | nil => simp at e2
        | cons a l => cases e2; exact h.why pre l i r e1
  · intro i c t d hm
    rcases List.mem_append.1 hm with hm | hx
    · have := h.called i c t d hm; dsimp only; omega
    · rcases hq with ⟨_, _, h3⟩ | ⟨_, _, _, _, rfl, rfl, _⟩
      · exact absurd hx (h3 i c t d)
      · simp at hx; have := hx.1; dsimp only; omega
  · intro i r hm
    rcases List.mem_append.1 hm with hm | hx
    · obtain ⟨h1, h2⟩ := h.returned i r hm
      refine ⟨by dsimp only; omega, ?_⟩
      intro p hp
      obtain ⟨p0, hp0, rfl⟩ : ∃ p0, s.rds i = some p0 ∧ p0.step op = p := by simpa [State.tell] using hp
      rw [Ne, hout i p0 hp0]; exact h2 p0 hp0
    · rcases hq with ⟨_, h3, _⟩ | ⟨_, _, _, _, rfl, rfl, _⟩
      · exact absurd hx (h3 i r)
      · simp at hx
        have hx := hx.1
        refine ⟨by dsimp only; omega, ?_⟩
        intro p hp
        obtain ⟨p0, hp0, rfl⟩ : ∃ p0, s.rds i = some p0 ∧ p0.step op = p := by simpa [State.tell] using hp
        have := hlt i p0 hp0; omega
  · exact hp
  · exact hon
  · exact hca
  · intro i hi hr
    by_cases hi' : i < s.n
    · obtain ⟨p, hp, h0⟩ := h.back i hi' (fun r hm => hr r (List.mem_append_left _ hm))
      exact ⟨p.step op, by simp [State.tell, hp], (hout i p hp).2 h0⟩
    · rcases hq with ⟨rfl, _⟩ | ⟨_, _, _, r, rfl, rfl, _⟩
      · exact absurd hi hi'
      · have : i = s.n := by dsimp only at hi; omega
        subst this
        exact absurd (show Ev.returned s.n r ∈ s.log ++ _ by simp) (hr r)

theorem Inv.own {d0 : Dev} {s : State} (h : Inv d0 s) (i : Nat) (op : Wait.Op DSig Dev) (ho : op = .handler ∨ op = .deliver ∨ op = .fire) : Inv d0 (s.own i op) := by
  unfold State.own
  cases hp : s.rds i with
  | none => exact h
  | some p =>
    dsimp only
    cases h0 : p.st.out with
    | some x => exact h
    | none =>
      dsimp only
      have P := h.pend i p hp h0
      have hi : i < s.n := by
        by_cases hi : i < s.n
        · exact hi
        · rw [h.born i (by omega)] at hp; cases hp
      have heq : heard [op] = [] ∧ elapsed [op] = 0 ∧ ∀ d, device d [op] = d := by rcases ho with rfl | rfl | rfl <;> exact ⟨rfl, rfl, fun _ => rfl⟩
      cases h1 : (p.step op).st.out with
      | none =>
        dsimp only
        have P' : PInv s.dev s.log i (p.step op) := by
          have := P.tell op [] s.dev (by rw [heq.1]; simp [signals]) (by rw [heq.2.1]; rfl) (by rw [heq.2.2]; cases s.dev <;> rfl) (by simp)
          simpa using this
        constructor
        · intro j hj
          dsimp only at hj ⊢
          rw [upd_other _ _ (by omega)]; exact h.born j hj
        · intro j p' hp' h0'
          dsimp only at hp' ⊢
          rw [upd_apply] at hp'
          by_cases hj : j = i
          · rw [if_pos hj] at hp'; cases hp'; rw [hj]; exact P'
          · rw [if_neg hj] at hp'; exact h.pend j p' hp' h0'
        · exact h.stream
        · exact h.lost
        · exact h.why
        · exact h.called
        · intro j r hm
          obtain ⟨a, b⟩ := h.returned j r hm
          refine ⟨a, ?_⟩
          intro p' hp'
          dsimp only at hp'
          rw [upd_apply] at hp'
          by_cases hj : j = i
          · subst hj; exact absurd h0 (b p hp)
          · rw [if_neg hj] at hp'; exact b p' hp'
        · exact h.pre
        · exact h.once
        · exact h.calls
        · intro j hj hr
          obtain ⟨p', hp', e⟩ := h.back j hj hr
          by_cases hji : j = i
          · subst hji; exact ⟨p.step op, by simp, h1⟩
          · exact ⟨p', by dsimp only; rw [upd_other _ _ hji]; exact hp', e⟩
      | some r =>
        dsimp only
        obtain ⟨pre, q, c, t, d, ops, e1, e2, e3, e4, e5, e6, e7, e8, e9⟩ := P.ex
        have hrun : (p.step op).st = run p.h p.k t d (ops ++ [op]) := by rw [run_snoc, ← e5]; rfl
        have hcall := readWith_wait c.fn d e2
        have o0 : (readWith c.fn (some d)).out t d ops = none := by
          rw [hcall]; show (run _ _ t d ops).out = none; rw [← e3, ← e4, ← e5]; exact h0
        have o1 : (readWith c.fn (some d)).out t d (ops ++ [op]) = some r := by
          rw [hcall]; show (run _ _ t d (ops ++ [op])).out = some r; rw [← e3, ← e4, ← hrun]; exact h1
        have od : (readWith c.fn (some d)).dev t d (ops ++ [op]) = (p.step op).st.dev := by
          rw [hcall]; show (run _ _ t d (ops ++ [op])).dev = _; rw [← e3, ← e4, ← hrun]
        have hW := C35_waits c.fn d e2 t ops op r o0 o1
        rw [od, e8, e6, e7] at hW
        -- the device afterwards
        have key : Why d0.buf s.log i r ∧ ((p.step op).st.dev = none ↔ s.dev = none) ∧
            ∀ d', (p.step op).st.dev = some d' → taken (s.log ++ [.returned i r]) ++ d'.buf = d0.buf ++ arrivals (s.log ++ [.returned i r]) := by
          rcases hW with ⟨⟨x, hx, hxe⟩, hop, hs, hn⟩ | ⟨rfl, ht, hc, hd⟩
          · cases hdev : s.dev with
            | some dd =>
              obtain ⟨rfl, hd'⟩ := hs dd hdev
              have hst := h.stream dd hdev
              refine ⟨?_, by simp [hd'], ?_⟩
              · refine .signal pre q c t d x _ e1 e2 hx hxe ?_ ?_
                · intro hm; rw [h.lost.2 hm] at hdev; cases hdev
                · rw [rest_eq hst]; exact fn_takes c dd
              · intro d' e
                rw [hd'] at e; cases e
                have := reader_split (reader c) dd
                simp [taken, arrivals, this, hst]
            | none =>
              have := hn hdev
              subst this
              have hd' : (p.step op).st.dev = none := by
                obtain ⟨v, f1, f2, f3⟩ := returns _ _ t d ops op (by rw [← e5]; exact h0) (by rw [← hrun]; exact h1)
                rw [← hrun, e8, hdev, e4] at f2
                rw [f2]
                cases v <;> rfl
              exact ⟨.gone pre q c t _ e1 (h.lost.1 hdev), by simp [hd'], by intro d' e; rw [hd'] at e; cases e⟩
          · refine ⟨.timeout pre q c t d e1 e2 ht hc, by rw [hd], ?_⟩
            intro d' e
            rw [hd] at e
            simpa [taken, arrivals] using h.stream d' e
        obtain ⟨k1, k2, k3⟩ := key
        have hoth : ∀ j p', j ≠ i → s.tellOthers i (p.step op) j = some p' →
            ∃ p0, s.rds j = some p0 ∧ (p'.st.out = none ↔ p0.st.out = none) ∧ (p0.st.out = none → PInv (p.step op).st.dev (s.log ++ [.returned i r]) j p') := by
          intro j p' hj hp'
          unfold State.tellOthers at hp'
          rw [if_neg hj] at hp'
          cases hd : (p.step op).st.dev with
          | none =>
            rw [hd] at hp'; dsimp only at hp'
            refine ⟨p', hp', Iff.rfl, fun ho' => ?_⟩
            obtain ⟨pre', q', c', t', d', ops', g1, g2, g3, g4, g5, g6, g7, g8, g9⟩ := (h.pend j p' hp' ho').ex
            refine ⟨pre', q' ++ [.returned i r], c', t', d', ops', by rw [g1]; simp, g2, g3, g4, g5, by simp [g6, signals], by simp [g7, clock], by rw [g8]; exact k2.1 hd, ?_⟩
            intro r' hm
            rcases List.mem_append.1 hm with hm | hm
            · exact g9 r' hm
            · simp at hm; exact hj hm.1
          | some dd =>
            rw [hd] at hp'; dsimp only at hp'
            obtain ⟨p0, hp0, rfl⟩ : ∃ p0, s.rds j = some p0 ∧ p0.step (.dev dd) = p' := by simpa using hp'
            have hsd : s.dev.isSome = true := by
              cases hs : s.dev with
              | none => rw [k2.2 hs] at hd; cases hd
              | some _ => rfl
            refine ⟨p0, hp0, ?_, ?_⟩
            · constructor
              · intro h1'
                cases h2' : p0.st.out with
                | none => rfl
                | some x =>
                  have : Wait.step p0.h p0.k p0.st (.dev dd) = p0.st := step_out_some (by simp [h2'])
                  have e : (p0.step (.dev dd)).st = p0.st := this
                  rw [e, h2'] at h1'; cases h1'
              · intro h1'; exact (h.pend j p0 hp0 h1').quiet h1' (by simp)
            · intro ho'
              exact (h.pend j p0 hp0 ho').tell (.dev dd) _ _ (by simp [signals, heard]) (by simp [clock, elapsed]) (by rw [hsd]; rfl)
                (by intro r' hm; simp at hm; exact hj hm.1)
        constructor
        · intro j hj
          dsimp only at hj ⊢
          unfold State.tellOthers
          rw [if_neg (by omega), h.born j hj]
          cases (p.step op).st.dev <;> rfl
        · intro j p' hp' h0'
          dsimp only at hp' ⊢
          by_cases hj : j = i
          · unfold State.tellOthers at hp'
            rw [if_pos hj] at hp'; cases hp'; rw [h1] at h0'; cases h0'
          · obtain ⟨p0, hp0, a, b⟩ := hoth j p' hj hp'
            exact b (a.1 h0')
        · exact k3
        · dsimp only
          rw [k2, h.lost]; simp
        · intro pre' post' i' r' e
          dsimp only at e
          rcases List.append_eq_append_iff.1 e with ⟨l, g1, g2⟩ | ⟨l, g1, g2⟩
          · cases l with
            | nil => simp at g2; obtain ⟨⟨rfl, rfl⟩, rfl⟩ := g2; rw [g1]; simpa using k1
            | cons a l => simp at g2
          · cases l with
            | nil => simp at g2; obtain ⟨⟨rfl, rfl⟩, rfl⟩ := g2; simp at g1; rw [← g1]; exact k1
            | cons a l => cases g2; exact h.why pre' l i' r' g1
        · intro i' c' t' d' hm
          rcases List.mem_append.1 hm with hm | hm
          · exact h.called i' c' t' d' hm
          · simp at hm
        · intro j r' hm
          have hj' : j = i ∨ (j ≠ i ∧ .returned j r' ∈ s.log) := by
            rcases List.mem_append.1 hm with hm | hm
            · by_cases hj : j = i
              · exact .inl hj
              · exact .inr ⟨hj, hm⟩
            · simp at hm; exact .inl hm.1
          rcases hj' with rfl | ⟨hj, hm⟩
          · refine ⟨hi, ?_⟩
            intro p' hp'
            dsimp only at hp'
            unfold State.tellOthers at hp'
            rw [if_pos rfl] at hp'; cases hp'; simp [h1]
          · obtain ⟨a, b⟩ := h.returned j r' hm
            refine ⟨a, ?_⟩
            intro p' hp'
            obtain ⟨p0, hp0, a', _⟩ := hoth j p' hj hp'
            rw [Ne, a']; exact b p0 hp0
        · dsimp only
          cases hd : (p.step op).st.dev with
          | some d' => exact ⟨d'.buf, k3 d' hd⟩
          | none =>
            have : taken [Ev.returned i r] = [] := by
              rcases hW with ⟨_, _, _, hn⟩ | ⟨rfl, _⟩
              · rw [hn (k2.1 hd)]; rfl
              · rfl
            rw [taken_append, this]
            simpa [arrivals] using h.pre
        · exact h.once.ret i r (fun r' hm => (h.returned i r' hm).2 p hp h0)
        · exact h.calls.quiet _ (by simp)
        · intro j hj hr
          have hji : j ≠ i := by rintro rfl; exact hr r (by simp)
          obtain ⟨p', hp', e⟩ := h.back j hj (fun r' hm => hr r' (List.mem_append_left _ hm))
          dsimp only
          have : ∃ p2, s.tellOthers i (p.step op) j = some p2 := by
            unfold State.tellOthers
            rw [if_neg hji, hp']
            cases (p.step op).st.dev <;> simp
          obtain ⟨p2, hp2⟩ := this
          obtain ⟨p0, hp0, a', _⟩ := hoth j p2 hji hp2
          rw [hp'] at hp0; cases hp0
          exact ⟨p2, hp2, a'.2 e⟩

theorem Inv.call {d0 : Dev} {s : State} (h : Inv d0 s) (c : RCall) (t : Int) : Inv d0 (s.call c t) := by
  unfold State.call
  cases hdev : s.dev with
  | none =>
    have e : readWith c.fn none = .ret .nullDeref none := (reads_now c.fn {} t).1
    rw [e]
    dsimp only
    have hlost : Ev.destroyed ∈ s.log := h.lost.1 hdev
    have w : Why d0.buf (s.log ++ [.called s.n c t none]) s.n .nullDeref := .gone s.log [] c t none rfl (List.mem_append_left _ hlost)
    constructor
    · intro i hi; exact h.born i (by dsimp only at hi; omega)
    · intro i p hp h0
      have hi : i < s.n := by
        by_cases hi : i < s.n
        · exact hi
        · dsimp only at hp; rw [h.born i (by omega)] at hp; cases hp
      obtain ⟨pre', q', c', t', d', ops', g1, g2, g3, g4, g5, g6, g7, g8, g9⟩ := (h.pend i p hp h0).ex
      refine ⟨pre', q' ++ [.called s.n c t none, .returned s.n .nullDeref], c', t', d', ops', by dsimp only; rw [g1]; simp, g2, g3, g4, g5, by simp [g6, signals], by simp [g7, clock], by dsimp only; rw [g8, hdev], ?_⟩
      intro r' hm
      rcases List.mem_append.1 hm with hm | hm
      · exact g9 r' hm
      · simp at hm; have := hm.1; omega
    · intro d hd; cases hd
    · dsimp only; simp [hdev, hlost]
    · intro pre post i r e
      dsimp only at e
      rcases List.append_eq_append_iff.1 e with ⟨l, e1, e2⟩ | ⟨l, e1, e2⟩
      · cases l with
        | nil => simp at e2
        | cons a l =>
          cases l with
          | nil => simp at e2; obtain ⟨rfl, ⟨rfl, rfl⟩, rfl⟩ := e2; rw [e1]; exact w
          | cons b l => simp at e2
      · cases l with
        | nil => simp at e2
        | cons a l => cases e2; exact h.why pre l i r e1
    · intro i c' t' d' hm
      rcases List.mem_append.1 hm with hm | hx
      · have := h.called i c' t' d' hm; dsimp only; omega
      · simp at hx; have := hx.1; dsimp only; omega
    · intro i r hm
      rcases List.mem_append.1 hm with hm | hx
      · obtain ⟨a, b⟩ := h.returned i r hm
        exact ⟨by dsimp only; omega, b⟩
      · simp at hx
        have hx := hx.1
        refine ⟨by dsimp only; omega, ?_⟩
        intro p hp; dsimp only at hp; rw [h.born i (by omega)] at hp; cases hp
    · simpa [taken, arrivals] using h.pre
    · have h1 := (h.once.quiet (.called s.n c t none) (by simp)).ret s.n .nullDeref (by
        intro r hm
        rcases List.mem_append.1 hm with hm | hm
        · have := (h.returned s.n r hm).1; omega
        · simp at hm)
      simpa using h1
    · have h1 := (h.calls.quiet (.called s.n c t none) (by simp)).quiet (.returned s.n .nullDeref) (by simp)
      simpa using h1
    · intro i hi hr
      by_cases hi' : i < s.n
      · exact h.back i hi' (fun r hm => hr r (List.mem_append_left _ hm))
      · have : i = s.n := by dsimp only at hi; omega
        subst this
        exact absurd (by simp) (hr .nullDeref)
  | some d =>
    have hst := h.stream d hdev
    have hnl : Ev.destroyed ∉ s.log := fun hm => by rw [h.lost.2 hm] at hdev; cases hdev
    have hrest : rest d0.buf (s.log ++ [.called s.n c t (some d)]) = d.buf := rest_eq (by simpa [taken, arrivals] using hst)
    obtain ⟨-, r2, r3, r4⟩ := reads_now c.fn d t
    have imm : ∀ l d', Why d0.buf (s.log ++ [.called s.n c t (some d)]) s.n (.ok l) → l ++ d'.buf = d.buf →
        readWith c.fn (some d) = .ret (.ok l) (some d') →
        Inv d0 { dev := some d', n := s.n + 1, rds := s.tell (.dev d'), log := s.log ++ [.called s.n c t (some d), .returned s.n (.ok l)] } := by
      intro l d' hw hl _
      refine h.told (.dev d') [.called s.n c t (some d), .returned s.n (.ok l)] (some d') (s.n + 1) (by simp) (by simp [signals, heard]) rfl (by rw [hdev]; rfl) ?_ ?_ ?_ ?_ ?_
        (.inr ⟨c, t, some d, .ok l, rfl, rfl, hw⟩)
      · intro dd e; cases e; simp [taken, arrivals, hl, hst]
      · simp [hnl]
      · exact ⟨d'.buf, by simp [taken, arrivals, hl, hst]⟩
      · have h1 := (h.once.quiet (.called s.n c t (some d)) (by simp)).ret s.n (.ok l) (by
          intro r hm
          rcases List.mem_append.1 hm with hm | hm
          · have := (h.returned s.n r hm).1; omega
          · simp at hm)
        simpa using h1
      · have h1 := (h.calls.call s.n c t d hst).quiet (.returned s.n (.ok l)) (by simp)
        simpa using h1
    by_cases hre : d.readable = true
    · by_cases hw : waitsRead d
      · rw [readWith_wait c.fn d hw]
        dsimp only
        constructor
        · intro i hi; dsimp only at hi ⊢; rw [upd_other _ _ (by omega)]; exact h.born i (by omega)
        · intro i p hp h0
          dsimp only at hp ⊢
          rw [upd_apply] at hp
          by_cases hi : i = s.n
          · rw [if_pos hi] at hp; cases hp
            rw [hi]
            exact ⟨s.log, [], c, t, d, [], rfl, hw, rfl, rfl, rfl, rfl, rfl, rfl, by simp⟩
          · rw [if_neg hi] at hp
            obtain ⟨pre', q', c', t', d', ops', g1, g2, g3, g4, g5, g6, g7, g8, g9⟩ := (h.pend i p hp h0).ex
            exact ⟨pre', q' ++ [.called s.n c t (some d)], c', t', d', ops', by rw [g1]; simp, g2, g3, g4, g5, by simp [g6, signals], by simp [g7, clock], by rw [g8, hdev], by
              intro r' hm
              rcases List.mem_append.1 hm with hm | hm
              · exact g9 r' hm
              · simp at hm⟩
        · intro dd e; dsimp only at e ⊢; cases e; simpa [taken, arrivals] using hst
        · simp [hnl]
        · intro pre post i r e
          dsimp only at e
          rcases List.append_eq_append_iff.1 e with ⟨l, e1, e2⟩ | ⟨l, e1, e2⟩
          · cases l with
            | nil => simp at e2
            | cons a l => simp at e2
          · cases l with
            | nil => simp at e2
            | cons a l => cases e2; exact h.why pre l i r e1
        · intro i c' t' d' hm
          rcases List.mem_append.1 hm with hm | hx
          · have := h.called i c' t' d' hm; dsimp only; omega
          · simp at hx; have := hx.1; dsimp only; omega
        · intro i r hm
          rcases List.mem_append.1 hm with hm | hx
          · obtain ⟨a, b⟩ := h.returned i r hm
            refine ⟨by dsimp only; omega, ?_⟩
            intro p hp; dsimp only at hp; rw [upd_other _ _ (by omega)] at hp; exact b p hp
          · simp at hx
        · simpa [taken, arrivals] using h.pre
        · exact h.once.quiet _ (by simp)
        · exact h.calls.call _ _ _ _ hst
        · intro i hi hr
          by_cases hi' : i < s.n
          · obtain ⟨p, hp, e⟩ := h.back i hi' (fun r hm => hr r (List.mem_append_left _ hm))
            exact ⟨p, by dsimp only; rw [upd_other _ _ (by omega)]; exact hp, e⟩
          · have : i = s.n := by dsimp only at hi; omega
            subst this
            exact ⟨_, upd_same _ _ _, rfl⟩
      · have e := r4 hre hw
        have := imm (c.fn d).1 (c.fn d).2 (.now s.log c t d _ rfl hre (.inr hw) (by rw [hrest]; exact fn_takes c d)) (reader_split (reader c) d) e
        rw [e]; exact this
    · have hre : d.readable = false := by simpa using hre
      have e := r2 hre
      have := imm [] d (.unreadable s.log c t d rfl hre) rfl e
      rw [e]; exact this

theorem inv_step {d0 : Dev} {s : State} (h : Inv d0 s) (op : Op) : Inv d0 (step s op) := by
  cases op with
  | call c t => exact h.call c t
  | handler i => exact h.own i _ (.inl rfl)
  | deliver i => exact h.own i _ (.inr (.inl rfl))
  | fire i => exact h.own i _ (.inr (.inr rfl))
  | time ms =>
    refine h.told (.time ms) [.passed ms] s.dev s.n (by simp) (by simp [signals, heard]) (by simp [clock, elapsed]) (by cases s.dev <;> rfl) ?_ ?_ ?_ (h.once.quiet _ (by simp)) (h.calls.quiet _ (by simp)) (.inl ⟨rfl, by simp, by simp⟩)
    · intro d hd; simpa [taken, arrivals] using h.stream d hd
    · rw [h.lost]; simp
    · simpa [taken, arrivals] using h.pre
  | arrive b =>
    unfold step
    cases hdev : s.dev with
    | none => exact h
    | some d =>
      have hnl : Ev.destroyed ∉ s.log := fun hm => by rw [h.lost.2 hm] at hdev; cases hdev
      refine h.told (.dev { d with buf := d.buf ++ b }) [.arrived b] _ s.n (by simp) (by simp [signals, heard]) rfl (by rw [hdev]; rfl) ?_ ?_ ?_ (h.once.quiet _ (by simp)) (h.calls.quiet _ (by simp)) (.inl ⟨rfl, by simp, by simp⟩)
      · intro d' e; cases e
        have := h.stream d hdev
        simp [taken, arrivals, ← List.append_assoc, this]
      · simp [hnl]
      · exact ⟨d.buf ++ b, by have := h.stream d hdev; simp [taken, arrivals, ← List.append_assoc, this]⟩
  | change d' =>
    unfold step
    cases hdev : s.dev with
    | none => exact h
    | some d =>
      have hnl : Ev.destroyed ∉ s.log := fun hm => by rw [h.lost.2 hm] at hdev; cases hdev
      have := h.told (.dev { d' with buf := d.buf }) [] (some { d' with buf := d.buf }) s.n (by simp) (by simp [signals, heard]) rfl (by rw [hdev]; rfl)
        (by intro x e; cases e; simpa [taken, arrivals] using h.stream d hdev) (by simp [hnl]) (by simpa using h.pre) (by simpa using h.once) (by simpa using h.calls) (.inl ⟨rfl, by simp, by simp⟩)
      rw [List.append_nil] at this
      exact this
  | sig x cross =>
    unfold step
    cases hdev : s.dev with
    | none => exact h
    | some d =>
      have hnl : Ev.destroyed ∉ s.log := fun hm => by rw [h.lost.2 hm] at hdev; cases hdev
      have := h.told (.sig x cross) [.emitted x] (some d) s.n (by simp) (by simp [signals, heard, hdev]) rfl (by rw [hdev]; rfl)
        (by intro x e; cases e; simpa [taken, arrivals] using h.stream d hdev) (by simp [hnl]) (by simpa [taken, arrivals] using h.pre) (h.once.quiet _ (by simp)) (h.calls.quiet _ (by simp)) (.inl ⟨rfl, by simp, by simp⟩)
      exact this
  | gone =>
    unfold step
    cases hdev : s.dev with
    | none => exact h
    | some d =>
      exact h.told .gone [.destroyed] none s.n (by simp) (by simp [signals, heard]) rfl (by rw [hdev]; rfl)
        (by intro x e; cases e) (by simp) (by simpa [taken, arrivals] using h.pre) (h.once.quiet _ (by simp)) (h.calls.quiet _ (by simp)) (.inl ⟨rfl, by simp, by simp⟩)

theorem inv_exec (d0 : Dev) (ops : List Op) : Inv d0 (exec d0 ops) := by
  induction ops using snocInd with
  | nil =>
    constructor
    · intro i _; rfl
    · intro i p hp; cases hp
    · intro d e; cases e; simp [exec, taken, arrivals]
    · simp [exec]
    · intro pre post i r e; simp [exec] at e
    · intro i c t d hm; simp [exec] at hm
    · intro i r hm; simp [exec] at hm
    · simp [exec, taken, arrivals]
    · intro p q i r e; simp [exec] at e
    · intro p q i c t d e; simp [exec] at e
    · intro i hi; simp [exec] at hi
  | snoc l op ih => rw [exec_snoc]; exact inv_step ih op

/-! ### Properties -/

/-- However many coroutines read from the device, with whatever calls and in whatever order the event loop serves them: the bytes they return,
in the order in which they return them, followed by what is still there, are the bytes there at the beginning followed by those that arrived. -/
theorem C69_no_loss (d0 : Dev) (ops : List Op) (d : Dev) (h : (exec d0 ops).dev = some d) :
    taken (exec d0 ops).log ++ d.buf = d0.buf ++ arrivals (exec d0 ops).log := (inv_exec d0 ops).stream d h

/-- Also if the device is destroyed, nothing is returned twice or out of order. -/
theorem C69_no_dup (d0 : Dev) (ops : List Op) : taken (exec d0 ops).log <+: d0.buf ++ arrivals (exec d0 ops).log := (inv_exec d0 ops).pre

/-- Each call returns only for the reasons it would have if it were alone, and takes from what is there when it returns. -/
theorem C69_why (d0 : Dev) (ops : List Op) (pre post : List Ev) (i : Nat) (r : Res (List UInt8))
    (h : (exec d0 ops).log = pre ++ .returned i r :: post) : Why d0.buf pre i r := (inv_exec d0 ops).why pre post i r h

/-- Each call returns at most once. -/
theorem C69_once (d0 : Dev) (ops : List Op) (pre post : List Ev) (i : Nat) (r r' : Res (List UInt8))
    (h : (exec d0 ops).log = pre ++ .returned i r :: post) : .returned i r' ∉ pre := (inv_exec d0 ops).once pre post i r h r'

/-- Call `i` was made with timeout `t` on the device `d`, `q` happened since, and it has not returned. -/
def Waiting (log : List Ev) (i : Nat) (t : Int) (d : Dev) (q : List Ev) : Prop :=
  ∃ p c, log = p ++ .called i c t (some d) :: q ∧ ∀ r, .returned i r ∉ log

theorem log_own (s : State) (i : Nat) (op : Wait.Op DSig Dev) : (s.own i op).log = s.log ∨ ∃ r, (s.own i op).log = s.log ++ [.returned i r] := by
  unfold State.own
  cases s.rds i with
  | none => exact .inl rfl
  | some p =>
    dsimp only
    cases p.st.out with
    | some x => exact .inl rfl
    | none =>
      dsimp only
      cases (p.step op).st.out with
      | none => exact .inl rfl
      | some r => exact .inr ⟨r, rfl⟩

theorem log_call (s : State) (c : RCall) (t : Int) : (s.call c t).log = s.log ∨ (s.call c t).log = s.log ++ [.called s.n c t s.dev] ∨
    ∃ r, (s.call c t).log = s.log ++ [.called s.n c t s.dev] ++ [.returned s.n r] := by
  unfold State.call
  cases readWith c.fn s.dev with
  | ret r d' =>
    dsimp only
    cases d' with
    | none => exact .inr (.inr ⟨r, by simp⟩)
    | some d => exact .inr (.inr ⟨r, by simp⟩)
  | wait h k =>
    dsimp only
    cases hd : s.dev with
    | none => exact .inl rfl
    | some d => exact .inr (.inl rfl)

theorem log_step (s : State) (op : Op) : (step s op).log = s.log ∨ (∃ e, (step s op).log = s.log ++ [e] ∧ ∀ i c t d, e = .called i c t d → i = s.n) ∨
    ∃ c t d r, (step s op).log = s.log ++ [.called s.n c t d] ++ [.returned s.n r] := by
  have own : ∀ i w, (s.own i w).log = s.log ∨ ∃ e, (s.own i w).log = s.log ++ [e] ∧ ∀ j c t d, e = .called j c t d → j = s.n := by
    intro i w
    rcases log_own s i w with h | ⟨r, h⟩
    · exact .inl h
    · exact .inr ⟨_, h, by intro j c t d e; cases e⟩
  cases op with
  | handler i => exact (own i .handler).imp id .inl
  | deliver i => exact (own i .deliver).imp id .inl
  | fire i => exact (own i .fire).imp id .inl
  | time ms => exact .inr (.inl ⟨_, rfl, by intro j c t d e; cases e⟩)
  | arrive b => unfold step; cases s.dev with
    | none => exact .inl rfl
    | some d => exact .inr (.inl ⟨_, rfl, by intro j c t d e; cases e⟩)
  | change b => unfold step; cases s.dev with
    | none => exact .inl rfl
    | some d => exact .inl rfl
  | sig x c => unfold step; cases s.dev with
    | none => exact .inl rfl
    | some d => exact .inr (.inl ⟨_, rfl, by intro j c t d e; cases e⟩)
  | gone => unfold step; cases s.dev with
    | none => exact .inl rfl
    | some d => exact .inr (.inl ⟨_, rfl, by intro j c t d e; cases e⟩)
  | call c t =>
    rcases log_call s c t with h | h | ⟨r, h⟩
    · exact .inl h
    · exact .inr (.inl ⟨_, h, by intro j c t d e; cases e; rfl⟩)
    · exact .inr (.inr ⟨_, _, _, r, h⟩)

theorem called_once (d0 : Dev) (ops : List Op) : ∀ p q i c t d, (exec d0 ops).log = p ++ .called i c t d :: q → ∀ c' t' d', .called i c' t' d' ∉ p := by
  induction ops using snocInd with
  | nil => intro p q i c t d e; simp [exec] at e
  | snoc l op ih =>
    intro p q i c t d e c' t' d' hm
    rw [exec_snoc] at e
    have I := inv_exec d0 l
    have base : ∀ x, (exec d0 l).log ++ [x] = p ++ .called i c t d :: q → (∀ j c t d, x = .called j c t d → j = (exec d0 l).n) → False := by
      intro x hx hn
      rcases split_snoc hx with ⟨rfl, rfl⟩ | ⟨q', h⟩
      · have h1 := hn _ _ _ _ rfl
        have h2 := I.called _ _ _ _ hm
        omega
      · exact ih _ _ _ _ _ _ h _ _ _ hm
    rcases log_step (exec d0 l) op with h | ⟨x, h, hn⟩ | ⟨c1, t1, d1, r1, h⟩
    · rw [h] at e; exact ih _ _ _ _ _ _ e _ _ _ hm
    · rw [h] at e; exact base x e hn
    · rw [h] at e
      rcases split_snoc e with ⟨_, h⟩ | ⟨q', h⟩
      · cases h
      · rcases split_snoc h with ⟨rfl, h'⟩ | ⟨q2, h'⟩
        · have h2 := I.called _ _ _ _ hm
          cases h'; omega
        · exact ih _ _ _ _ _ _ h' _ _ _ hm

theorem split_unique {log p q p' q' : List Ev} {x y : Ev} (h1 : log = p ++ x :: q) (h2 : log = p' ++ y :: q') (hx : x ∉ p') (hy : y ∉ p) : p = p' ∧ x = y ∧ q = q' := by
  rw [h1] at h2
  rcases List.append_eq_append_iff.1 h2 with ⟨l, e1, e2⟩ | ⟨l, e1, e2⟩
  · cases l with
    | nil => simp at e1 e2; exact ⟨e1.symm, e2.1, e2.2⟩
    | cons a l => simp at e2; exact absurd (by rw [e1]; simp [e2.1]) hx
  · cases l with
    | nil => simp at e1 e2; exact ⟨e1, e2.1.symm, e2.2.symm⟩
    | cons a l => simp at e2; exact absurd (by rw [e1]; simp [e2.1]) hy

theorem waiting_pending {d0 : Dev} {ops : List Op} {i : Nat} {t : Int} {d : Dev} {q : List Ev} (h : Waiting (exec d0 ops).log i t d q) :
    ∃ (p0 : Pending) (c : RCall) (vops : List (Wait.Op DSig Dev)), (exec d0 ops).rds i = some p0 ∧ p0.st.out = none ∧ waitsRead d ∧ p0.h = readHelper d.kind ∧
      p0.k = (fun r dv => afterReady c.fn (.ok r.isSome, dv)) ∧ p0.st = run p0.h p0.k t d vops ∧ heard vops = signals q ∧ elapsed vops = clock q := by
  obtain ⟨p, c, e, hr⟩ := h
  have I := inv_exec d0 ops
  obtain ⟨p0, hp0, ho⟩ := I.back i (I.called i c t (some d) (by rw [e]; simp)) hr
  obtain ⟨pre, q', c', t', d', vops, e1, e2, e3, e4, e5, e6, e7, e8, e9⟩ := (I.pend i p0 hp0 ho).ex
  obtain ⟨_, h2, h3⟩ := split_unique e e1 (called_once d0 ops _ _ _ _ _ _ e1 _ _ _) (called_once d0 ops _ _ _ _ _ _ e _ _ _)
  cases h2
  exact ⟨p0, c, vops, hp0, ho, e2, e3, e4, e5, h3 ▸ e6, h3 ▸ e7⟩

/-- Serving one call. -/
theorem serve (i : Nat) (p0 : Pending) (o : Wait.Op DSig Dev) (s : State) (hp : s.rds i = some p0) (ho : p0.st.out = none) :
    (∃ r, .returned i r ∈ (s.own i o).log ∧ (p0.step o).st.out = some r) ∨
    ((s.own i o).rds i = some (p0.step o) ∧ (p0.step o).st.out = none) := by
  unfold State.own
  rw [hp]
  dsimp only
  rw [ho]
  dsimp only
  cases h : (p0.step o).st.out with
  | none => right; exact ⟨upd_same _ _ _, rfl⟩
  | some r => left; exact ⟨r, by simp, rfl⟩

theorem log_mono (s : State) (op : Op) (e : Ev) (h : e ∈ s.log) : e ∈ (step s op).log := by
  rcases log_step s op with h' | ⟨x, h', _⟩ | ⟨_, _, _, _, h'⟩ <;> rw [h'] <;> simp [h]

/-- The event loop serves call `i`. -/
def glob (i : Nat) : Wait.Op DSig Dev → Op
  | .handler => .handler i
  | .deliver => .deliver i
  | _ => .fire i

theorem mono_fold (gl : List Op) (s : State) (e : Ev) (h : e ∈ s.log) : e ∈ (gl.foldl step s).log := by
  induction gl generalizing s with
  | nil => exact h
  | cons g gl ih => exact ih _ (log_mono s g _ h)

theorem serve_many (i : Nat) (t : Int) (d : Dev) (mops : List (Wait.Op DSig Dev)) (hm : ∀ m ∈ mops, m = .handler ∨ m = .deliver ∨ m = .fire)
    (p0 : Pending) (vops : List (Wait.Op DSig Dev)) (s : State)
    (hp : s.rds i = some p0) (ho : p0.st.out = none) (hs : p0.st = run p0.h p0.k t d vops) :
    (∃ r, .returned i r ∈ ((mops.map (glob i)).foldl step s).log ∧ (run p0.h p0.k t d (vops ++ mops)).out = some r) ∨
    (run p0.h p0.k t d (vops ++ mops)).out = none := by
  induction mops generalizing s p0 vops with
  | nil => right; rw [List.append_nil, ← hs]; exact ho
  | cons m ml ih =>
    have e : step s (glob i m) = s.own i m := by rcases hm m (by simp) with rfl | rfl | rfl <;> rfl
    have hs' : (p0.step m).st = run p0.h p0.k t d (vops ++ [m]) := by
      show Wait.step p0.h p0.k p0.st m = _; rw [hs]; exact (run_snoc _ _ _ _ _ _).symm
    rw [List.map_cons, List.foldl_cons, e]
    rcases serve i p0 m s hp ho with ⟨r, hr, h2⟩ | ⟨h1, h2⟩
    · refine .inl ⟨r, mono_fold _ _ _ hr, ?_⟩
      rw [hs'] at h2
      rw [List.append_cons, returned_stays _ _ _ _ _ ml h2]; exact h2
    · have := ih (fun m h => hm m (by simp [h])) (p0.step m) (vops ++ [m]) (s.own i m) h1 h2 hs'
      rw [List.append_assoc] at this
      exact this

/-- A call waits, and a signal that ends its wait was emitted since: it returns as soon as the event loop has served it. -/
theorem C69_completes (d0 : Dev) (ops : List Op) (i : Nat) (t : Int) (d : Dev) (q : List Ev) (hw : Waiting (exec d0 ops).log i t d q)
    (x : DSig) (hx : x ∈ signals q) (he : endsRead d.kind x) :
    ∃ n m r, .returned i r ∈ (exec d0 (ops ++ List.replicate n (.handler i) ++ List.replicate m (.deliver i))).log := by
  obtain ⟨p0, c, vops, h1, h2, h3, h4, h5, h6, h7, h8⟩ := waiting_pending hw
  obtain ⟨n, m, hnm⟩ := C35_complete c.fn d h3 t vops x (by rw [h7]; exact hx) he
  rw [readWith_wait c.fn d h3] at hnm
  change ((run _ _ t d (vops ++ _ ++ _)).out).isSome = true at hnm
  rw [← h4, ← h5, List.append_assoc] at hnm
  have := serve_many i t d (List.replicate n .handler ++ List.replicate m .deliver) (by
    intro o ho
    rcases List.mem_append.1 ho with ho | ho
    · exact .inl (List.eq_of_mem_replicate ho)
    · exact .inr (.inl (List.eq_of_mem_replicate ho))) p0 vops (exec d0 ops) h1 h2 h6
  rcases this with ⟨r, hr, _⟩ | h
  · refine ⟨n, m, r, ?_⟩
    rw [List.map_append, List.map_replicate, List.map_replicate] at hr
    rw [List.append_assoc]
    show _ ∈ (List.foldl step _ _).log
    rw [List.foldl_append]; exact hr
  · rw [h] at hnm; cases hnm

/-- **No call is left waiting while there is something to read**, if the device announces what arrives: the signal that told one call of the data told
all of them. -/
theorem C69_not_left_waiting (d0 : Dev) (ops : List Op) (i : Nat) (t : Int) (d : Dev) (q : List Ev) (hw : Waiting (exec d0 ops).log i t d q)
    (hd : rest d0.buf (exec d0 ops).log ≠ [])
    (ha : ∀ p b post, (exec d0 ops).log = p ++ .arrived b :: post → b ≠ [] → .emitted .readyRead ∈ post) :
    ∃ n m r, .returned i r ∈ (exec d0 (ops ++ List.replicate n (.handler i) ++ List.replicate m (.deliver i))).log := by
  have hw' := hw
  obtain ⟨p, c, e, hr⟩ := hw'
  have hwr : waitsRead d := by obtain ⟨_, _, _, _, _, h, _⟩ := waiting_pending hw; exact h
  have hbuf : d.buf = [] := hwr.2.1
  have h1 := (inv_exec d0 ops).calls _ _ _ _ _ _ e
  rw [hbuf, List.append_nil] at h1
  have harr : arrivals q ≠ [] := by
    intro h
    apply hd
    unfold rest
    rw [e]
    simp [arrivals, taken, h, ← h1]
  have hev : ∃ a b q', q = a ++ .arrived b :: q' ∧ b ≠ [] := by
    clear hw e ha hd h1 hr
    induction q with
    | nil => exact absurd rfl harr
    | cons x q ih =>
      by_cases hx : ∃ b, x = .arrived b ∧ b ≠ []
      · obtain ⟨b, rfl, hb⟩ := hx; exact ⟨[], b, q, rfl, hb⟩
      · obtain ⟨a, b, q', h, hb⟩ := ih (by
          intro h; apply harr
          cases x with
          | arrived b =>
            have : b = [] := Classical.byContradiction fun hb => hx ⟨b, rfl, hb⟩
            simp [arrivals, this, h]
          | _ => exact h)
        exact ⟨x :: a, b, q', by rw [h]; rfl, hb⟩
  obtain ⟨a, b, q', hq, hb⟩ := hev
  have hm := ha (p ++ .called i c t (some d) :: a) b q' (by rw [e, hq]; simp) hb
  refine C69_completes d0 ops i t d q hw .readyRead ?_ ?_
  · have : ∀ l : List Ev, Ev.emitted .readyRead ∈ l → DSig.readyRead ∈ signals l := by
      intro l
      induction l with
      | nil => intro h; cases h
      | cons x l ih =>
        intro h
        cases h with
        | head => simp [signals]
        | tail _ h => cases x <;> simp [signals, ih h]
    exact this q (by rw [hq]; simp [hm])
  · cases d.kind <;> simp [endsRead]

/-- The timeout of each call ends it with nothing. -/
theorem C69_timeout (d0 : Dev) (ops : List Op) (i : Nat) (t : Int) (d : Dev) (q : List Ev) (hw : Waiting (exec d0 ops).log i t d q)
    (ht : 0 ≤ t) (hc : t ≤ clock q) : .returned i (.ok []) ∈ (exec d0 (ops ++ [.fire i])).log := by
  obtain ⟨p0, c, vops, h1, h2, h3, h4, h5, h6, h7, h8⟩ := waiting_pending hw
  have hcall := readWith_wait c.fn d h3
  have := C35_timeout c.fn d h3 t vops (by rw [hcall]; show (run _ _ t d vops).out = none; rw [← h4, ← h5, ← h6]; exact h2) ht (by rw [h8]; exact hc)
  rw [hcall] at this
  change (run _ _ t d (vops ++ _)).out = _ at this
  rw [← h4, ← h5] at this
  rcases serve_many i t d [.fire] (by simp) p0 vops (exec d0 ops) h1 h2 h6 with ⟨r, hr, h⟩ | h
  · rw [this] at h; cases h
    rw [exec_snoc]; exact hr
  · rw [this] at h; cases h

/-! ### Examples -/

/-- Two coroutines wait for data, five bytes arrive: both are told; the first takes two, the second the rest. -/
def demo : List Op := [.call (.upTo 2) (-1), .call .all 100, .arrive [1, 2, 3, 4, 5], .sig .readyRead false, .time 3, .deliver 0, .deliver 1]
example : ((exec {} demo).log.filterMap fun | .returned i r => some (i, r) | _ => none) = [(0, .ok [1, 2]), (1, .ok [3, 4, 5])] := by decide
example : Waiting (exec {} (demo.take 6)).log 1 100 {} [.arrived [1, 2, 3, 4, 5], .emitted .readyRead, .passed 3, .returned 0 (.ok [1, 2])] := by
  have e : (exec {} (demo.take 6)).log = [.called 0 (.upTo 2) (-1) (some {})] ++ .called 1 .all 100 (some {}) ::
      [.arrived [1, 2, 3, 4, 5], .emitted .readyRead, .passed 3, .returned 0 (.ok [1, 2])] := by decide
  exact ⟨_, _, e, by intro r; rw [e]; simp⟩
example : rest [] (exec {} (demo.take 6)).log = [3, 4, 5] := by decide

/-- Found: a call may return nothing although it was told of data: another call took it. -/
theorem C69_empty_handed : ∃ ops, (exec {} ops).log = [.called 0 .all (-1) (some {}), .called 1 .all (-1) (some {}), .arrived [7], .emitted .readyRead,
    .returned 1 (.ok [7]), .returned 0 (.ok [])] :=
  ⟨[.call .all (-1), .call .all (-1), .arrive [7], .sig .readyRead false, .deliver 1, .deliver 0], by decide⟩

end QCoro.Wait.Many
