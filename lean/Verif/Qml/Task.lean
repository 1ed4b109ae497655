import Verif.Util.Basic
/-
C55, C64: `QCoro::QmlTask`, `QCoro::QmlTaskListener` (`qcoro/qml/qcoroqmltask.{h,cpp}`).
`then` and `await` attach continuations to the wrapped Task with `Task::then`; what that does is the subject of the Task model
(C04, C05, C15, C16). Here it is used as: the continuations suspended on the Task are resumed one after the other, in order of
registration, by the completing Task (`qcoro/impl/taskfinalsuspend.h:26-28`); a continuation attached later runs at once; each one moves the
result out of the promise (`qcoro/impl/taskbase.h:69`, `:203-213`); an exception ends the continuation without calling anything.
The JavaScript function called by one continuation may do anything between two turns of that loop: `next` is the return of control
to the loop, and every other operation may come before it.
-/
set_option linter.unusedSimpArgs false
namespace QCoro.QmlTask

/-- A QVariant. Models Qt (documented behaviour), not code of /repo. -/
inductive Var
  | invalid                -- default-constructed or moved-from
  | nullOf (t : Nat)       -- of type t but null
  | val (n : Nat)
deriving DecidableEq, Repr

/-- `QVariant::isNull`. Models Qt (documented behaviour), not code of /repo. -/
def Var.isNull : Var → Bool | .val _ => false | _ => true

/-- The wrapped `std::optional<Task<QVariant>>` (`qcoroqmltask.cpp:23-24`). -/
inductive TS
  | null                   -- default-constructed QmlTask (`:44-46`)
  | running
  | done (v : Var)         -- co_returned v (`qcoroqmltask.h:50-73`: an invalid QVariant for a Task<void>)
  | failed                 -- by an exception
deriving DecidableEq, Repr

/-- (`qcoro/qml/qcoroqmltask.cpp:58-88`). -/
inductive Kind
  | js                     -- `then(func)`
  | listener               -- `await()`
deriving DecidableEq, Repr

/-- Bookkeeping of the model, no counterpart in /repo. -/
inductive Ev
  | warned                          -- qCWarning, nothing else
  | preset (i : Nat) (x : Var)      -- listener number i shows the intermediate value x (setValue)
  | attached (i : Nat) (k : Kind)   -- the i-th accepted then()/await()
  | finished (r : Option Var)       -- the Task completes with a value, or fails (none)
  | called (i : Nat) (x : Var)      -- the JS function of then() number i is called with x
  | set (i : Nat) (x : Var)         -- listener number i gets value x and emits valueChanged
  | skipped (i : Nat)               -- the continuation of listener number i finds its listener destroyed
  | passed (i : Nat)                -- the exception passes through continuation number i
  | killed (i : Nat)                -- listener number i is destroyed
  | engineGone                      -- the QJSEngine is destroyed
deriving DecidableEq, Repr

/-- (`qcoro/qml/qcoroqmltask.cpp`.) -/
inductive Ub
  | unreachable            -- Q_UNREACHABLE in the copy constructor of QmlTaskPrivate (`:27-29`)
  | nullopt                -- `*d->task` of an empty optional (`:82`)
  | engine                 -- `getEngineForValue(func)->` of a QJSValue whose engine is gone (`:39`, `:71`)
deriving DecidableEq, Repr

/-- `QmlTaskPrivate` (`qcoro/qml/qcoroqmltask.cpp:23-30`), the objects that share it, the continuations attached to its Task and the
listeners (`qcoroqmltask.h:102-113`). -/
structure State where
  ref : Nat := 1                       -- QmlTask objects that share the private data (QSharedDataPointer)
  task : TS
  conts : List (Nat × Kind) := []      -- continuations suspended on the Task, in order
  n : Nat := 0                         -- continuations attached so far
  alive : Nat → Bool := fun _ => false -- listeners that exist
  val : Nat → Var := fun _ => .invalid -- their m_value
  moved : Bool := false                -- the result was moved out of the promise
  engine : Bool := true                -- the QJSEngine exists
  log : List Ev := []
  ub : Option Ub := none

/-- Bookkeeping of the model, no counterpart in /repo. -/
def State.emit (s : State) (e : Ev) : State := { s with log := s.log ++ [e] }

/-- The continuation number `i` runs: `co_await task` (`qcoro/impl/taskbase.h:69`, `:204`) rethrows or moves the result out, then the lambda is
called: the JS call (`qcoroqmltask.cpp:70-73`), or the guarded `setValue` (`:82-86`, `:95-99`). -/
def State.turn (s : State) (i : Nat) (k : Kind) : State :=
  match s.task with
  | .done v =>
    let x := if s.moved then .invalid else v
    match k with
    | .js => if s.engine then ({ s with moved := true } : State).emit (.called i x) else { s with moved := true, ub := some .engine }
    | .listener =>
      if s.alive i then ({ s with moved := true, val := upd s.val i x } : State).emit (.set i x)
      else ({ s with moved := true } : State).emit (.skipped i)
  | .failed => s.emit (.passed i)
  | _ => s

/-- `d->task->then(…)` (`qcoro/qml/qcoroqmltask.cpp:70`, `:82`; `qcoro/impl/taskbase.h:83-87`, `:195-216`). -/
def State.attach (s : State) (k : Kind) : State :=
  let s1 := ({ s with n := s.n + 1 } : State).emit (.attached s.n k)
  match s.task with
  | .running => { s1 with conts := s.conts ++ [(s.n, k)] }
  | _ => s1.turn s.n k

/-- One round of the loop of the completing Task (`qcoro/impl/taskfinalsuspend.h:26-28`). -/
def State.resumeNext (s : State) : State :=
  match s.conts with
  | [] => s
  | c :: r => ({ s with conts := r } : State).turn c.1 c.2

/-- Models the environment (application, event loop, JavaScript) rather than code of /repo. -/
inductive Op
  | copy                        -- the QmlTask is copied
  | drop                        -- a QmlTask is destroyed
  | then_ (callable : Bool)     -- QML calls task.then(arg)
  | await (init : Var)          -- QML calls task.await(init)
  | finish (r : Option Var)     -- the Task completes; the first continuation runs
  | next                        -- the function called by the loop returns: the next continuation runs
  | kill (i : Nat)              -- the listener number i is destroyed
  | engineGone                  -- the QJSEngine is destroyed
deriving DecidableEq

/-- `QSharedDataPointer::operator->` on a non-const pointer detaches, which copies the private data if it is shared.
(`qcoro/qml/qcoroqmltask.cpp:44-88`, lines cited at each case.) A QJSValue of a destroyed engine is not callable (Qt). -/
def step (s : State) (op : Op) : State :=
  if s.ub.isSome then s else
  match op with
  | .copy => if s.ref = 0 then s else { s with ref := s.ref + 1 }
  | .drop => { s with ref := s.ref - 1 }
  | .then_ callable =>        -- `:58-74`
    if s.ref = 0 then s
    else if s.ref ≠ 1 then { s with ub := some .unreachable }
    else if s.task = .null then s.emit .warned
    else if callable = false ∨ s.engine = false then s.emit .warned
    else s.attach .js
  | .await init =>            -- `:76-88`
    if s.ref = 0 then s
    else if s.ref ≠ 1 then { s with ub := some .unreachable }
    else if s.task = .null then { s with ub := some .nullopt }
    else
      let s1 : State := { s with alive := upd s.alive s.n true }
      if init.isNull then s1.attach .listener
      else (({ s1 with val := upd s.val s.n init } : State).emit (.preset s.n init)).attach .listener
  | .finish r =>
    if s.task = .running then
      (({ s with task := (match r with | some x => .done x | none => .failed) } : State).emit (.finished r)).resumeNext
    else s
  | .next => if s.task = .running ∨ s.task = .null then s else s.resumeNext
  | .kill i => if s.alive i then ({ s with alive := upd s.alive i false } : State).emit (.killed i) else s
  | .engineGone => if s.engine then ({ s with engine := false } : State).emit .engineGone else s

/-- A QmlTask made from a Task, or (null) default-constructed. (`qcoro/qml/qcoroqmltask.cpp:44-52`). -/
def exec (null : Bool) (ops : List Op) : State := ops.foldl step { task := if null then .null else .running }

theorem exec_snoc (null : Bool) (ops : List Op) (op : Op) : exec null (ops ++ [op]) = step (exec null ops) op := by simp [exec]

/-! ### Specification: what may happen after a given history -/

/-- Event `e` is the one turn of continuation `i`. Specification vocabulary, no counterpart in /repo. -/
def isTurn (i : Nat) : Ev → Bool
  | .called j _ => decide (j = i) | .set j _ => decide (j = i) | .skipped j => decide (j = i) | .passed j => decide (j = i) | _ => false
/-- Specification vocabulary, no counterpart in /repo. -/
def turns (i : Nat) (l : List Ev) : Nat := l.countP (isTurn i)
/-- Specification vocabulary, no counterpart in /repo. -/
def isAttached : Ev → Bool | .attached _ _ => true | _ => false
/-- Continuations attached so far. Specification vocabulary, no counterpart in /repo. -/
def attachedN (l : List Ev) : Nat := l.countP isAttached
/-- It is the turn of `i`: it had none yet, and either all earlier ones had theirs or `i` was attached just now.
Specification vocabulary, no counterpart in /repo. -/
def mayTurn (l : List Ev) (i : Nat) : Prop :=
  turns i l = 0 ∧ ((∀ j, j < i → turns j l = 1) ∨ ∃ k, l.getLast? = some (.attached i k))
/-- The value continuation `i` gets: the result for the first one, a moved-from QVariant for the others.
Specification vocabulary, no counterpart in /repo. -/
def value (l : List Ev) (i : Nat) (x : Var) : Prop := ∃ v, .finished (some v) ∈ l ∧ x = if i = 0 then v else .invalid

/-- What may happen after the history `l`. Specification, no counterpart in /repo. -/
def ok (l : List Ev) : Ev → Prop
  | .warned => True
  | .preset i x => i = attachedN l ∧ x.isNull = false
  | .attached i _ => i = attachedN l
  | .finished _ => ∀ r, .finished r ∉ l
  | .called i x => .attached i .js ∈ l ∧ mayTurn l i ∧ value l i x ∧ .engineGone ∉ l
  | .set i x => .attached i .listener ∈ l ∧ mayTurn l i ∧ value l i x ∧ .killed i ∉ l
  | .skipped i => .attached i .listener ∈ l ∧ mayTurn l i ∧ (∃ v, .finished (some v) ∈ l) ∧ .killed i ∈ l
  | .passed i => (∃ k, .attached i k ∈ l) ∧ mayTurn l i ∧ .finished none ∈ l
  | .killed i => .attached i .listener ∈ l ∧ .killed i ∉ l
  | .engineGone => .engineGone ∉ l

/-- Every event was allowed by what came before. Specification, no counterpart in /repo. -/
def Good (l : List Ev) : Prop := ∀ pre e post, l = pre ++ e :: post → ok pre e

/-- The values listener `i` was given, in order. Specification vocabulary, no counterpart in /repo. -/
def shown (i : Nat) (l : List Ev) : List Var :=
  l.filterMap (fun | .preset j x => if j = i then some x else none | .set j x => if j = i then some x else none | _ => none)

theorem Good.snoc {l : List Ev} {e : Ev} (h : Good l) (he : ok l e) : Good (l ++ [e]) := by
  intro pre e' post hl
  rcases List.eq_nil_or_concat post with rfl | ⟨post', x, rfl⟩
  · obtain ⟨h1, h2⟩ := List.append_inj' hl rfl
    simp at h2; subst h1; subst h2; exact he
  · have h2 : l ++ [e] = (pre ++ e' :: post') ++ [x] := by rw [hl]; simp
    exact h _ _ _ (List.append_inj' h2 rfl).1

theorem turns_snoc (i : Nat) (l : List Ev) (e : Ev) : turns i (l ++ [e]) = turns i l + (isTurn i e).toNat := by
  simp only [turns, List.countP_append, List.countP_cons, List.countP_nil]
  cases isTurn i e <;> simp
theorem attachedN_snoc (l : List Ev) (e : Ev) : attachedN (l ++ [e]) = attachedN l + (isAttached e).toNat := by
  simp only [attachedN, List.countP_append, List.countP_cons, List.countP_nil]
  cases isAttached e <;> simp

theorem shown_snoc (i : Nat) (l : List Ev) (e : Ev) : shown i (l ++ [e]) = shown i l ++ shown i [e] := by simp [shown]

/-! ### Invariant -/

/-- What the log says about the Task. Proof vocabulary, no counterpart in /repo. -/
def TaskOk (null : Bool) (t : TS) (l : List Ev) : Prop :=
  match t with
  | .null => null = true ∧ ∀ r, .finished r ∉ l
  | .running => null = false ∧ ∀ r, .finished r ∉ l
  | .done v => null = false ∧ .finished (some v) ∈ l
  | .failed => null = false ∧ .finished none ∈ l

/-- Proof invariant (parametrised by a continuation that is about to run), no counterpart in /repo. -/
structure InvB (null : Bool) (s : State) (p : Nat → Prop) : Prop where
  good : Good s.log
  nn : s.n = attachedN s.log
  ids : ∀ i k, .attached i k ∈ s.log → i < s.n
  ex : ∀ i, i < s.n → ∃ k, .attached i k ∈ s.log
  tk : TaskOk null s.task s.log
  t0 : (∀ r, .finished r ∉ s.log) → ∀ i, turns i s.log = 0
  tn : ∀ i, s.n ≤ i → turns i s.log = 0
  le : ∀ i, turns i s.log ≤ 1
  cs : ∀ c ∈ s.conts, .attached c.1 c.2 ∈ s.log ∧ turns c.1 s.log = 0 ∧ ¬ p c.1
  srt : s.conts.Pairwise (fun a b => a.1 < b.1)
  all : s.ub = none → ∀ i k, .attached i k ∈ s.log → (i, k) ∈ s.conts ∨ turns i s.log = 1 ∨ p i
  mv : s.ub = none → s.task ≠ .failed → (s.moved = true ↔ turns 0 s.log = 1)
  al : ∀ i, s.alive i = true ↔ (.attached i .listener ∈ s.log ∧ .killed i ∉ s.log)
  kl : ∀ i, .killed i ∈ s.log → .attached i .listener ∈ s.log
  en : s.engine = true ↔ .engineGone ∉ s.log
  vl : ∀ i, s.val i = ((shown i s.log).getLast?).getD .invalid

/-- Proof invariant, no counterpart in /repo. -/
structure Inv (null : Bool) (s : State) : Prop where
  b : InvB null s (fun _ => False)
  z : s.ub = none → (∃ r, .finished r ∈ s.log) → 0 < s.n → turns 0 s.log = 1

/-- The turn of continuation `i` keeps the invariant. -/
theorem inv_emit {null : Bool} {s s' : State} {i : Nat} {k : Kind} {e : Ev} (h : InvB null s (fun j => j = i))
    (ha : .attached i k ∈ s.log) (ht : turns i s.log = 0) (hz : i ≠ 0 → turns 0 s.log = 1) (hok : ok s.log e)
    (hfin : ∃ r, .finished r ∈ s.log)
    (he : ∀ j, isTurn j e = decide (i = j)) (hl : s'.log = s.log ++ [e]) (hn : s'.n = s.n) (htk : s'.task = s.task)
    (hc : s'.conts = s.conts) (hal : s'.alive = s.alive) (hen : s'.engine = s.engine)
    (hmv : s.task ≠ .failed → s'.moved = true) (hvl : ∀ j, s'.val j = ((shown j s'.log).getLast?).getD .invalid)
    (hu : s'.ub = s.ub) : Inv null s' := by
  obtain ⟨g, nn, ids, ex, tk, t0, tn, le, cs, srt, all, mv, al, kl, en, vl⟩ := h
  have hi := ids i k ha
  have m1 : ∀ j k', Ev.attached j k' ∈ s.log ++ [e] ↔ Ev.attached j k' ∈ s.log := by
    intro j k'; cases e <;> simp_all [isTurn]
  have m2 : ∀ j, Ev.killed j ∈ s.log ++ [e] ↔ Ev.killed j ∈ s.log := by intro j; cases e <;> simp_all [isTurn]
  have m3 : Ev.engineGone ∈ s.log ++ [e] ↔ Ev.engineGone ∈ s.log := by cases e <;> simp_all [isTurn]
  have m4 : ∀ r, Ev.finished r ∈ s.log ++ [e] ↔ Ev.finished r ∈ s.log := by intro r; cases e <;> simp_all [isTurn]
  have hna : isAttached e = false := by cases e <;> simp_all [isTurn, isAttached]
  have htt : ∀ j, turns j s'.log = turns j s.log + (decide (i = j)).toNat := by intro j; rw [hl, turns_snoc, he]
  have h0 : turns 0 s'.log = 1 := by
    rw [htt]
    by_cases h : i = 0
    · subst h; simp [ht]
    · rw [hz h]; simp [h]
  refine ⟨⟨hl ▸ g.snoc hok, ?_, ?_, ?_, ?_, ?_, ?_, ?_, ?_, hc ▸ srt, ?_, ?_, ?_, ?_, ?_, hvl⟩, ?_⟩
  · rw [hn, hl, attachedN_snoc, hna]; exact nn
  · rw [hn, hl]; intro j k'; rw [m1]; exact ids j k'
  · rw [hn, hl]; intro j hj; obtain ⟨k', hk⟩ := ex j hj; exact ⟨k', (m1 _ _).2 hk⟩
  · rw [htk, hl]; revert tk; unfold TaskOk; cases s.task <;> simp only [m4] <;> exact fun x => x
  · rw [hl]; intro hno; obtain ⟨r, hr⟩ := hfin; exact absurd ((m4 r).2 hr) (hno r)
  · rw [hn]; intro j hj; rw [htt, tn j hj]; have : i ≠ j := by omega
    simp [this]
  · intro j; rw [htt]
    by_cases h : i = j
    · subst h; simp [ht]
    · simp [h]; exact le j
  · rw [hc]; intro c hcc
    obtain ⟨c1, c2, c3⟩ := cs c hcc
    refine ⟨by rw [hl, m1]; exact c1, ?_, id⟩
    rw [htt, c2]; simp; exact fun h => c3 h.symm
  · rw [hu, hc]; intro hub j k' hj; rw [hl, m1] at hj
    rw [htt]
    rcases all hub j k' hj with h | h | h
    · exact .inl h
    · by_cases hij : i = j
      · subst hij; omega
      · right; left; simp [hij, h]
    · right; left; rw [← h] at ht; simp [h, ht]
      rw [← h]; exact ht
  · rw [hu, htk]; intro _ hv; rw [h0, hmv hv]; simp
  · intro j; rw [hal, al, hl, m1, m2]
  · intro j; rw [hl, m1, m2]; exact kl j
  · rw [hen, en, hl, m3]
  · intro _ _ _; exact h0

theorem inv_turn {null : Bool} {s : State} {i : Nat} {k : Kind} (h : InvB null s (fun j => j = i)) (hu : s.ub = none)
    (ha : .attached i k ∈ s.log) (hm : mayTurn s.log i) (hz : i ≠ 0 → turns 0 s.log = 1)
    (hf : s.task ≠ .running ∧ s.task ≠ .null) : Inv null (s.turn i k) := by
  have ht := hm.1
  have hi := h.ids i k ha
  obtain ⟨t, hte⟩ : ∃ t, s.task = t := ⟨_, rfl⟩
  cases t with
  | null => exact absurd hte hf.2
  | running => exact absurd hte hf.1
  | failed =>
    have tk := h.tk
    rw [hte] at tk
    have hok : ok s.log (.passed i) := ⟨⟨k, ha⟩, hm, tk.2⟩
    refine inv_emit (e := .passed i) (s' := s.turn i k) h ha ht hz hok ⟨_, tk.2⟩ (fun _ => rfl) ?_ ?_ ?_ ?_ ?_ ?_ ?_ ?_ ?_ <;> try simp [State.turn, hte, State.emit]
    · intro j; rw [shown_snoc, h.vl]; simp [shown]
  | done v =>
    have tk := h.tk
    rw [hte] at tk
    have hval : value s.log i (if s.moved then .invalid else v) := by
      refine ⟨v, tk.2, ?_⟩
      have hmv := h.mv hu (by rw [hte]; simp)
      by_cases h0 : i = 0
      · subst h0
        have : s.moved = false := by
          cases hmm : s.moved
          · rfl
          · rw [hmm] at hmv; have := hmv.1 rfl; omega
        simp [this]
      · have := hmv.2 (hz h0)
        simp [this, h0]
    cases k with
    | js =>
      by_cases he : s.engine = true
      · have hok : ok s.log (.called i (if s.moved then .invalid else v)) := ⟨ha, hm, hval, (h.en).1 he⟩
        refine inv_emit (e := .called i (if s.moved then .invalid else v)) (s' := s.turn i .js) h ha ht hz hok ⟨_, tk.2⟩ (fun _ => rfl) ?_ ?_ ?_ ?_ ?_ ?_ ?_ ?_ ?_ <;> try simp [State.turn, hte, State.emit, he]
        · intro j; rw [shown_snoc, h.vl]; simp [shown]
      · simp only [State.turn, hte, if_neg he]
        obtain ⟨g, nn, ids, ex, tk', t0, tn, le, cs, srt, all, mv, al, kl, en, vl⟩ := h
        refine ⟨⟨g, nn, ids, ex, by rw [hte] at tk'; exact tk', t0, tn, le, fun c hc => ⟨(cs c hc).1, (cs c hc).2.1, id⟩, srt, (by intro h; cases h), (by intro h; cases h), al, kl, en, vl⟩, (by intro h; cases h)⟩
    | listener =>
      by_cases he : s.alive i = true
      · have hok : ok s.log (.set i (if s.moved then .invalid else v)) := ⟨ha, hm, hval, ((h.al i).1 he).2⟩
        refine inv_emit (e := .set i (if s.moved then .invalid else v)) (s' := s.turn i .listener) h ha ht hz hok ⟨_, tk.2⟩ (fun _ => rfl) ?_ ?_ ?_ ?_ ?_ ?_ ?_ ?_ ?_ <;> try simp [State.turn, hte, State.emit, he]
        · intro j; rw [shown_snoc]
          by_cases hj : j = i
          · subst hj; rw [upd_same]; simp [shown]
          · rw [upd_other _ _ hj, h.vl]; simp [shown, Ne.symm hj]
      · have hk : .killed i ∈ s.log := by
          apply Classical.byContradiction
          intro hc; exact he ((h.al i).2 ⟨ha, hc⟩)
        have hok : ok s.log (.skipped i) := ⟨ha, hm, ⟨v, tk.2⟩, hk⟩
        refine inv_emit (e := .skipped i) (s' := s.turn i .listener) h ha ht hz hok ⟨_, tk.2⟩ (fun _ => rfl) ?_ ?_ ?_ ?_ ?_ ?_ ?_ ?_ ?_ <;> try simp [State.turn, hte, State.emit, he]
        · intro j; rw [shown_snoc, h.vl]; simp [shown]

/-- A continuation that suspends or runs at once. -/
theorem inv_attach {null : Bool} {s : State} {k : Kind} (h : Inv null s) (hu : s.ub = none) (hnn : s.task ≠ .null)
    (al' : Nat → Bool) (hal : ∀ i, al' i = if i = s.n ∧ k = .listener then true else s.alive i) :
    Inv null (({ s with alive := al' } : State).attach k) := by
  obtain ⟨⟨g, nn, ids, ex, tk, t0, tn, le, cs, srt, all, mv, al, kl, en, vl⟩, z⟩ := h
  have hok : ok s.log (.attached s.n k) := nn
  have hnk : ∀ k', Ev.attached s.n k' ∉ s.log := fun k' hk => Nat.lt_irrefl _ (ids _ _ hk)
  have key : InvB null { (({ s with alive := al', n := s.n + 1 } : State).emit (.attached s.n k)) with conts := s.conts } (fun j => j = s.n) := by
    refine ⟨g.snoc hok, ?_, ?_, ?_, ?_, ?_, ?_, ?_, ?_, srt, ?_, ?_, ?_, ?_, ?_, ?_⟩ <;>
      simp only [State.emit, turns_snoc, attachedN_snoc, shown_snoc, List.mem_append, List.mem_singleton, reduceCtorEq, or_false, isTurn, isAttached,
        shown, List.filterMap_cons, List.filterMap_nil, List.append_nil, Bool.toNat_false, Nat.add_zero, Bool.toNat_true, Ev.attached.injEq]
    · omega
    · rintro i k' (h | ⟨rfl, -⟩)
      · have := ids i k' h; omega
      · omega
    · intro i hi
      by_cases h : i < s.n
      · obtain ⟨k', hk⟩ := ex i h; exact ⟨k', .inl hk⟩
      · exact ⟨k, .inr ⟨by omega, rfl⟩⟩
    · revert tk; unfold TaskOk; cases s.task <;> simp
    · exact t0
    · intro i hi; exact tn i (by omega)
    · exact le
    · intro c hc
      refine ⟨.inl (cs c hc).1, (cs c hc).2.1, ?_⟩
      have := ids _ _ (cs c hc).1; omega
    · rintro hub i k' (h | ⟨rfl, -⟩)
      · rcases all hub i k' h with h | h | h
        · exact .inl h
        · exact .inr (.inl h)
        · cases h
      · exact .inr (.inr rfl)
    · exact mv
    · intro i
      rw [hal]
      by_cases h : i = s.n
      · subst h
        have hkk : Ev.killed s.n ∉ s.log := fun hk => hnk _ (kl _ hk)
        have hna : s.alive s.n = false := by
          cases hx : s.alive s.n
          · rfl
          · exact absurd ((al _).1 hx).1 (hnk _)
        by_cases hk : k = .listener
        · subst hk; simp [hkk]
        · rw [if_neg (fun h => hk h.2), hna]
          simp only [hnk, hkk, true_and, false_or, not_false_eq_true, and_true]
          constructor
          · intro h; cases h
          · intro h; exact absurd h.symm hk
      · rw [if_neg (fun hh => h hh.1), al]; simp [h]
    · intro i hi; exact .inl (kl i hi)
    · exact en
    · intro i; rw [vl]; simp [shown]
  by_cases hrun : s.task = .running
  · simp only [State.attach, hrun]
    obtain ⟨g, nn', ids', ex', tk', t0', tn', le', cs', srt', all', mv', al', kl', en', vl'⟩ := key
    rw [hrun] at tk
    have hno := t0 tk.2
    refine ⟨⟨g, nn', ids', ex', ?_, t0', tn', le', ?_, ?_, ?_, ?_, al', kl', en', vl'⟩, ?_⟩
    · simp only [TaskOk, State.emit, List.mem_append, List.mem_singleton, reduceCtorEq, or_false]; exact tk
    · intro c hc
      simp only [List.mem_append, List.mem_singleton] at hc
      rcases hc with hc | rfl
      · exact ⟨(cs' c hc).1, (cs' c hc).2.1, id⟩
      · refine ⟨by simp [State.emit], ?_, id⟩
        simp [State.emit, turns_snoc, isTurn, hno]
    · simp only [List.pairwise_append, List.pairwise_cons, List.mem_singleton]
      refine ⟨srt, ⟨by simp, List.Pairwise.nil⟩, ?_⟩
      rintro a ha b rfl
      exact ids _ _ (cs a ha).1
    · intro _ i k' hi
      simp only [State.emit, List.mem_append, List.mem_singleton, Ev.attached.injEq] at hi ⊢
      rcases hi with hi | ⟨rfl, rfl⟩
      · rcases all hu i k' hi with h | h | h
        · exact .inl (.inl h)
        · rw [hno] at h; cases h
        · cases h
      · exact .inl (.inr rfl)
    · intro _ _; exact (mv hu (by rw [hrun]; simp)).trans (by simp [State.emit, turns_snoc, isTurn])
    · rintro _ ⟨r, hr⟩; simp [State.emit] at hr; exact absurd hr (tk.2 r)
  · have hfin : ∃ r, Ev.finished r ∈ s.log := by
      revert tk hrun hnn; unfold TaskOk
      cases s.task <;> simp
      · intro _ h; exact ⟨_, h⟩
      · intro _ h; exact ⟨_, h⟩
    have e : (({ s with alive := al' } : State).attach k) = ({ (({ s with alive := al', n := s.n + 1 } : State).emit (.attached s.n k)) with conts := s.conts } : State).turn s.n k := by
      revert hrun
      simp only [State.attach, State.emit]
      cases s.task <;> simp
    rw [e]
    refine inv_turn key hu (by simp [State.emit]) ⟨?_, .inr ⟨k, by simp [State.emit]⟩⟩ ?_ ⟨hrun, hnn⟩
    · simp [State.emit, turns_snoc, isTurn, tn s.n (Nat.le_refl _)]
    · intro h0
      simp only [State.emit, turns_snoc, isTurn, Bool.toNat_false, Nat.add_zero]
      exact z hu hfin (by omega)

theorem inv_resume {null : Bool} {s : State} (h : InvB null s (fun _ => False)) (hu : s.ub = none)
    (hz : ∀ c r, s.conts = c :: r → c.1 ≠ 0 → turns 0 s.log = 1) (h0 : s.conts = [] → (∃ r, .finished r ∈ s.log) → 0 < s.n → turns 0 s.log = 1)
    (hf : s.task ≠ .running ∧ s.task ≠ .null) : Inv null s.resumeNext := by
  unfold State.resumeNext
  cases hc : s.conts with
  | nil => exact ⟨h, fun _ => h0 hc⟩
  | cons c r =>
    obtain ⟨g, nn, ids, ex, tk, t0, tn, le, cs, srt, all, mv, al, kl, en, vl⟩ := h
    rw [hc] at cs srt
    have hc0 := cs c (by simp)
    rw [List.pairwise_cons] at srt
    refine inv_turn (s := { s with conts := r }) ⟨g, nn, ids, ex, tk, t0, tn, le, ?_, srt.2, ?_, mv, al, kl, en, vl⟩ hu hc0.1 ⟨hc0.2.1, .inl ?_⟩ (hz c r hc) hf
    · intro d hd
      refine ⟨(cs d (by simp [hd])).1, (cs d (by simp [hd])).2.1, ?_⟩
      have := srt.1 d hd; omega
    · intro hub i k hi
      rcases all hub i k hi with h | h | h
      · rw [hc] at h
        rcases List.mem_cons.1 h with h | h
        · exact .inr (.inr (by rw [← h]))
        · exact .inl h
      · exact .inr (.inl h)
      · cases h
    · intro j hj
      obtain ⟨k, hk⟩ := ex j (by have := ids _ _ hc0.1; omega)
      rcases all hu j k hk with h | h | h
      · rw [hc] at h
        rcases List.mem_cons.1 h with h | h
        · rw [← h] at hj; exact absurd hj (Nat.lt_irrefl _)
        · have := srt.1 _ h; simp at this; omega
      · exact h
      · cases h

/-- Any other event keeps the invariant. -/
theorem inv_other {null : Bool} {s s' : State} {e : Ev} (h : Inv null s) (hok : ok s.log e) (he : ∀ j, isTurn j e = false) (hna : isAttached e = false)
    (hnf : ∀ r, e ≠ .finished r) (hl : s'.log = s.log ++ [e]) (hn : s'.n = s.n) (htk : s'.task = s.task) (hc : s'.conts = s.conts)
    (hmv : s'.moved = s.moved) (hu : s'.ub = s.ub)
    (hal : ∀ i, s'.alive i = true ↔ (.attached i .listener ∈ s'.log ∧ .killed i ∉ s'.log))
    (hkl : ∀ i, e = .killed i → .attached i .listener ∈ s.log)
    (hen : s'.engine = true ↔ .engineGone ∉ s'.log) (hvl : ∀ i, s'.val i = ((shown i s'.log).getLast?).getD .invalid) : Inv null s' := by
  obtain ⟨⟨g, nn, ids, ex, tk, t0, tn, le, cs, srt, all, mv, al, kl, en, vl⟩, z⟩ := h
  have m1 : ∀ j k', Ev.attached j k' ∈ s'.log ↔ Ev.attached j k' ∈ s.log := by
    intro j k'; rw [hl]; cases e <;> simp_all [isAttached]
  have m4 : ∀ r, Ev.finished r ∈ s'.log ↔ Ev.finished r ∈ s.log := by
    intro r; rw [hl, List.mem_append, List.mem_singleton]
    exact ⟨fun h => h.elim id (fun h => absurd h.symm (hnf r)), .inl⟩
  have htt : ∀ j, turns j s'.log = turns j s.log := by intro j; rw [hl, turns_snoc, he]; rfl
  refine ⟨⟨hl ▸ g.snoc hok, ?_, ?_, ?_, ?_, ?_, ?_, ?_, ?_, hc ▸ srt, ?_, ?_, hal, ?_, hen, hvl⟩, ?_⟩
  · rw [hn, hl, attachedN_snoc, hna]; exact nn
  · simp only [m1, hn]; exact ids
  · simp only [m1, hn]; exact ex
  · revert tk; rw [htk]; unfold TaskOk; cases s.task <;> simp only [m4] <;> exact fun x => x
  · simp only [m4, htt]; exact t0
  · simp only [hn, htt]; exact tn
  · simp only [htt]; exact le
  · simp only [hc, m1, htt]; exact cs
  · simp only [hc, hu, m1, htt]; exact all
  · simp only [hu, htk, hmv, htt]; exact mv
  · intro i hi
    rw [m1]
    rw [hl, List.mem_append, List.mem_singleton] at hi
    rcases hi with hi | hi
    · exact kl i hi
    · exact hkl i hi.symm
  · simp only [hu, m4, hn, htt]; exact z

theorem inv_ref {null : Bool} {s : State} (h : Inv null s) (n : Nat) : Inv null { s with ref := n } := by
  obtain ⟨⟨g, nn, ids, ex, tk, t0, tn, le, cs, srt, all, mv, al, kl, en, vl⟩, z⟩ := h
  exact ⟨⟨g, nn, ids, ex, tk, t0, tn, le, cs, srt, all, mv, al, kl, en, vl⟩, z⟩

theorem inv_ub {null : Bool} {s : State} (h : Inv null s) (u : Ub) : Inv null { s with ub := some u } := by
  obtain ⟨⟨g, nn, ids, ex, tk, t0, tn, le, cs, srt, all, mv, al, kl, en, vl⟩, z⟩ := h
  exact ⟨⟨g, nn, ids, ex, tk, t0, tn, le, cs, srt, (by intro h; cases h), (by intro h; cases h), al, kl, en, vl⟩, (by intro h; cases h)⟩

theorem inv_warn {null : Bool} {s : State} (h : Inv null s) : Inv null (s.emit .warned) := by
  refine inv_other (e := .warned) h trivial (fun _ => rfl) rfl (by simp) rfl rfl rfl rfl rfl rfl ?_ (by simp) ?_ ?_
  · intro i; rw [show (s.emit .warned).alive = s.alive from rfl, h.b.al]; simp [State.emit]
  · rw [show (s.emit .warned).engine = s.engine from rfl, h.b.en]; simp [State.emit]
  · intro i; rw [show (s.emit .warned).val = s.val from rfl, h.b.vl]; simp [State.emit, shown]

theorem inv_step {null : Bool} {s : State} (h : Inv null s) (op : Op) : Inv null (step s op) := by
  unfold step
  by_cases hub : s.ub.isSome = true
  · rw [if_pos hub]; exact h
  rw [if_neg hub]
  have hu : s.ub = none := by cases hx : s.ub <;> simp_all
  cases op with
  | copy =>
    by_cases h0 : s.ref = 0
    · simp only [if_pos h0]; exact h
    · simp only [if_neg h0]; exact inv_ref h _
  | drop => exact inv_ref h _
  | then_ c =>
    by_cases h0 : s.ref = 0
    · simp only [if_pos h0]; exact h
    by_cases h1 : s.ref ≠ 1
    · simp only [if_neg h0, if_pos h1]; exact inv_ub h _
    by_cases h2 : s.task = .null
    · simp only [if_neg h0, if_neg h1, if_pos h2]; exact inv_warn h
    by_cases h3 : c = false ∨ s.engine = false
    · simp only [if_neg h0, if_neg h1, if_neg h2, if_pos h3]; exact inv_warn h
    simp only [if_neg h0, if_neg h1, if_neg h2, if_neg h3]
    exact inv_attach (k := .js) h hu h2 s.alive (by simp)
  | await init =>
    by_cases h0 : s.ref = 0
    · simp only [if_pos h0]; exact h
    by_cases h1 : s.ref ≠ 1
    · simp only [if_neg h0, if_pos h1]; exact inv_ub h _
    by_cases h2 : s.task = .null
    · simp only [if_neg h0, if_neg h1, if_pos h2]; exact inv_ub h _
    simp only [if_neg h0, if_neg h1, if_neg h2]
    by_cases h3 : init.isNull = true
    · rw [if_pos h3]
      exact inv_attach (k := .listener) h hu h2 _ (by intro i; rw [upd_apply]; by_cases hi : i = s.n <;> simp [hi])
    · rw [if_neg h3]
      have h' : Inv null (({ s with val := upd s.val s.n init } : State).emit (.preset s.n init)) := by
        refine inv_other (e := .preset s.n init) h ⟨h.b.nn, by simpa using h3⟩ (fun _ => rfl) rfl (by simp) rfl rfl rfl rfl rfl rfl ?_ (by simp) ?_ ?_
        · intro i; simp only [State.emit]; rw [h.b.al]; simp
        · simp only [State.emit]; rw [h.b.en]; simp
        · intro i; simp only [State.emit]
          by_cases hi : i = s.n
          · subst hi; rw [upd_same]; simp [shown]
          · rw [upd_other _ _ hi, h.b.vl]; simp [shown, Ne.symm hi]
      exact inv_attach (k := .listener) h' hu h2 (upd s.alive s.n true) (by intro i; rw [upd_apply]; by_cases hi : i = s.n <;> simp [hi, State.emit])
  | finish r =>
    by_cases h0 : s.task = .running
    · simp only [if_pos h0]
      obtain ⟨⟨g, nn, ids, ex, tk, t0, tn, le, cs, srt, all, mv, al, kl, en, vl⟩, z⟩ := h
      rw [h0] at tk
      have hno := t0 tk.2
      refine inv_resume ⟨g.snoc tk.2, ?_, ?_, ?_, ?_, ?_, ?_, ?_, ?_, srt, ?_, ?_, ?_, ?_, ?_, ?_⟩ hu ?_ ?_ ?_ <;>
      simp only [State.emit, turns_snoc, attachedN_snoc, List.mem_append, List.mem_singleton, reduceCtorEq, or_false, isTurn, isAttached,
        Bool.toNat_false, Nat.add_zero]
      · exact nn
      · exact ids
      · exact ex
      · cases r <;> simp [TaskOk, tk.1]
      · intro _ i; exact hno i
      · exact tn
      · exact le
      · exact cs
      · simpa using all
      · intro _ _
        exact mv hu (by rw [h0]; simp)
      · exact al
      · exact kl
      · exact en
      · intro i; rw [vl]; simp [shown]
      · intro c q hq hc
        obtain ⟨k, hk⟩ := ex 0 (by have := ids _ _ (cs c (by rw [hq]; simp)).1; omega)
        rcases all hu 0 k hk with h | h | h
        · rw [hq] at h srt
          rcases List.mem_cons.1 h with h | h
          · rw [← h] at hc; exact absurd rfl hc
          · have := (List.pairwise_cons.1 srt).1 _ h; simp at this
        · rw [hno] at h; cases h
        · cases h
      · intro hq _ hn
        obtain ⟨k, hk⟩ := ex 0 hn
        rcases all hu 0 k hk with h | h | h
        · rw [hq] at h; cases h
        · rw [hno] at h; cases h
        · cases h
      · cases r <;> simp
    · simp only [if_neg h0]; exact h
  | next =>
    by_cases h0 : s.task = .running ∨ s.task = .null
    · simp only [if_pos h0]; exact h
    · simp only [if_neg h0]
      refine inv_resume h.b hu ?_ ?_ ⟨fun x => h0 (.inl x), fun x => h0 (.inr x)⟩
      · intro c r hc _
        have hfin : ∃ r, Ev.finished r ∈ s.log := by
          have tk := h.b.tk
          revert tk h0; unfold TaskOk
          cases s.task <;> simp
          · intro _ h; exact ⟨_, h⟩
          · intro _ h; exact ⟨_, h⟩
        exact h.z hu hfin (by have := h.b.ids _ _ (h.b.cs c (by rw [hc]; simp)).1; omega)
      · intro _ hf hn; exact h.z hu hf hn
  | kill i =>
    by_cases h0 : s.alive i = true
    · simp only [if_pos h0]
      have hal := (h.b.al i).1 h0
      refine inv_other (e := .killed i) h hal (fun _ => rfl) rfl (by simp) rfl rfl rfl rfl rfl rfl ?_ ?_ ?_ ?_
      · intro j; simp only [State.emit]
        by_cases hj : j = i
        · subst hj; rw [upd_same]; simp
        · rw [upd_other _ _ hj, h.b.al]; simp [hj]
      · intro j hj; cases hj; exact hal.1
      · simp only [State.emit]; rw [h.b.en]; simp
      · intro j; simp only [State.emit]; rw [h.b.vl]; simp [shown]
    · simp only [if_neg h0]; exact h
  | engineGone =>
    by_cases h0 : s.engine = true
    · simp only [if_pos h0]
      refine inv_other (e := .engineGone) h (h.b.en.1 h0) (fun _ => rfl) rfl (by simp) rfl rfl rfl rfl rfl rfl ?_ (by simp) ?_ ?_
      · intro i; simp only [State.emit]; rw [h.b.al]; simp
      · simp [State.emit]
      · intro j; simp only [State.emit]; rw [h.b.vl]; simp [shown]
    · simp only [if_neg h0]; exact h

theorem inv_exec (null : Bool) (ops : List Op) : Inv null (exec null ops) := by
  induction ops using snocInd with
  | nil =>
    cases null <;>
    refine ⟨⟨?_, rfl, ?_, ?_, ?_, ?_, ?_, ?_, ?_, ?_, ?_, ?_, ?_, ?_, ?_, ?_⟩, ?_⟩ <;> simp [exec, Good, turns, shown, TaskOk]
  | snoc ops op ih => rw [exec_snoc]; exact inv_step ih op

/-! ### Specification of the handles and of the misuses -/

/-- A QmlTask object is copied or destroyed. Specification, no counterpart in /repo. -/
def handlesStep (n : Nat) : Op → Nat
  | .copy => if n = 0 then 0 else n + 1
  | .drop => n - 1
  | _ => n
/-- How many QmlTask objects share the private data. Specification, no counterpart in /repo. -/
def handles (ops : List Op) : Nat := ops.foldl handlesStep 1
theorem handles_snoc (ops : List Op) (op : Op) : handles (ops ++ [op]) = handlesStep (handles ops) op := by simp [handles]

/-- The continuation that runs next is `i`. Specification vocabulary, no counterpart in /repo. -/
def upNext (l : List Ev) (i : Nat) : Prop := turns i l = 0 ∧ ∀ j, j < i → turns j l = 1

/-- The misuses, after the history `l` with `h` handles. Specification, no counterpart in /repo. -/
def bad (null : Bool) (h : Nat) (l : List Ev) : Op → Prop
  | .then_ _ => 2 ≤ h                                     -- a copy exists
  | .await _ => 2 ≤ h ∨ (h = 1 ∧ null = true)             -- or there is no Task
  | .finish (some _) => null = false ∧ (∀ r, .finished r ∉ l) ∧ .engineGone ∈ l ∧ .attached 0 .js ∈ l    -- the engine of the function is gone
  | .next => (∃ v, .finished (some v) ∈ l) ∧ .engineGone ∈ l ∧ ∃ i, .attached i .js ∈ l ∧ upNext l i
  | _ => False

theorem turn_ref (s : State) (i : Nat) (k : Kind) : (s.turn i k).ref = s.ref := by
  unfold State.turn State.emit
  cases s.task with
  | done v => cases k <;> dsimp only <;> split <;> rfl
  | _ => rfl
theorem turn_ub {s : State} (hu : s.ub = none) (i : Nat) (k : Kind) :
    (s.turn i k).ub ≠ none ↔ (∃ v, s.task = .done v) ∧ k = .js ∧ s.engine = false := by
  unfold State.turn State.emit
  cases s.task with
  | done v => cases k <;> cases he : s.engine <;> cases hal : s.alive i <;> simp [hu]
  | _ => simp [hu]
theorem resume_ref (s : State) : s.resumeNext.ref = s.ref := by
  unfold State.resumeNext
  cases s.conts with
  | nil => rfl
  | cons c r => exact turn_ref _ _ _
theorem attach_ref (s : State) (k : Kind) : (s.attach k).ref = s.ref := by
  unfold State.attach
  cases s.task <;> first | rfl | exact turn_ref _ _ _
theorem attach_ub {s : State} (hu : s.ub = none) (k : Kind) (h : k = .listener ∨ s.engine = true) : (s.attach k).ub = none := by
  have hx : (({ s with n := s.n + 1 } : State).emit (.attached s.n k)).ub = none := hu
  have key : ((({ s with n := s.n + 1 } : State).emit (.attached s.n k)).turn s.n k).ub = none := by
    apply Classical.byContradiction
    intro hc
    obtain ⟨-, h1, h2⟩ := (turn_ub hx _ _).1 hc
    rcases h with h | h
    · rw [h1] at h; cases h
    · have h2' : s.engine = false := h2
      rw [h] at h2'; cases h2'
  unfold State.attach
  by_cases hr : s.task = .running
  · simp only [hr]; exact hu
  · revert key hr; dsimp only; cases s.task <;> simp

theorem step_ref {s : State} (hu : s.ub = none) (op : Op) : (step s op).ub ≠ none ∨ (step s op).ref = handlesStep s.ref op := by
  unfold step
  rw [if_neg (by rw [hu]; simp)]
  cases op with
  | copy => dsimp only; split <;> simp_all [handlesStep]
  | drop => exact .inr rfl
  | then_ c =>
    dsimp only
    split; · simp [handlesStep]
    split; · simp
    split; · exact .inr rfl
    split; · exact .inr rfl
    exact .inr (attach_ref _ _)
  | await init =>
    dsimp only
    split; · simp [handlesStep]
    split; · simp
    split; · simp
    split
    · exact .inr (attach_ref _ _)
    · exact .inr (attach_ref _ _)
  | finish r =>
    dsimp only
    split
    · exact .inr (resume_ref _)
    · exact .inr rfl
  | next =>
    dsimp only
    split
    · exact .inr rfl
    · exact .inr (resume_ref _)
  | kill i => dsimp only; split <;> exact .inr rfl
  | engineGone => dsimp only; split <;> exact .inr rfl

theorem conts_head {null : Bool} {s : State} (h : InvB null s (fun _ => False)) (hu : s.ub = none) {c : Nat × Kind} {r : List (Nat × Kind)} (hc : s.conts = c :: r) :
    .attached c.1 c.2 ∈ s.log ∧ upNext s.log c.1 := by
  obtain ⟨g, nn, ids, ex, tk, t0, tn, le, cs, srt, all, mv, al, kl, en, vl⟩ := h
  rw [hc] at cs srt
  have hc0 := cs c (by simp)
  rw [List.pairwise_cons] at srt
  refine ⟨hc0.1, hc0.2.1, ?_⟩
  intro j hj
  obtain ⟨k, hk⟩ := ex j (by have := ids _ _ hc0.1; omega)
  rcases all hu j k hk with h | h | h
  · rw [hc] at h
    rcases List.mem_cons.1 h with h | h
    · rw [← h] at hj; exact absurd hj (Nat.lt_irrefl _)
    · have := srt.1 _ h; simp at this; omega
  · exact h
  · cases h

theorem Good.kind {l : List Ev} (h : Good l) {i : Nat} {k k' : Kind} (h1 : .attached i k ∈ l) (h2 : .attached i k' ∈ l) : k = k' := by
  have aux : ∀ l : List Ev, Good l → ∀ i k, .attached i k ∈ l → i < attachedN l := by
    intro l
    induction l using snocInd with
    | nil => simp
    | snoc l e ih =>
      intro hg i k hm
      have hg' : Good l := fun pre e' post hl => hg pre e' (post ++ [e]) (by rw [hl]; simp)
      rw [attachedN_snoc]
      rcases List.mem_append.1 hm with hm | hm
      · have := ih hg' i k hm; omega
      · rw [List.mem_singleton] at hm; subst hm
        have := hg l _ [] rfl
        simp only [ok] at this
        simp [isAttached]; omega
  obtain ⟨a, b, rfl⟩ := List.append_of_mem h1
  have ha := h a _ b rfl
  rcases List.mem_append.1 h2 with h2 | h2
  · have hga : Good a := fun pre e' post hl => h pre e' (post ++ .attached i k :: b) (by rw [hl]; simp)
    have := aux a hga i k' h2
    simp only [ok] at ha; omega
  · rcases List.mem_cons.1 h2 with h2 | h2
    · cases h2; rfl
    · obtain ⟨c, d, rfl⟩ := List.append_of_mem h2
      have hb := h (a ++ .attached i k :: c) (.attached i k') d (by simp)
      simp only [ok] at ha hb
      rw [show a ++ Ev.attached i k :: c = (a ++ [.attached i k]) ++ c by simp] at hb
      simp only [attachedN, List.countP_append] at ha hb
      simp [isAttached] at hb; omega

theorem resume_ub {null : Bool} {s : State} (h : InvB null s (fun _ => False)) (hu : s.ub = none) :
    s.resumeNext.ub ≠ none ↔ (∃ v, s.task = .done v) ∧ s.engine = false ∧ ∃ i, .attached i .js ∈ s.log ∧ upNext s.log i := by
  unfold State.resumeNext
  obtain ⟨cs, hc⟩ : ∃ cs, s.conts = cs := ⟨_, rfl⟩
  rw [hc]
  cases cs with
  | nil =>
    simp only [hu, ne_eq, not_true_eq_false, false_iff]
    rintro ⟨-, -, i, h1, h2⟩
    rcases h.all hu i _ h1 with h | h | h
    · rw [hc] at h; cases h
    · rw [h2.1] at h; cases h
    · cases h
  | cons c r =>
    have hh := conts_head h hu hc
    simp only
    rw [turn_ub (s := { s with conts := r }) hu]
    constructor
    · rintro ⟨h1, h2, h3⟩
      exact ⟨h1, h3, c.1, h2 ▸ hh.1, hh.2⟩
    · rintro ⟨h1, h3, i, hi, hn⟩
      refine ⟨h1, ?_, h3⟩
      have : i = c.1 := by
        apply Nat.le_antisymm
        · apply Nat.le_of_not_lt; intro hlt; have := hn.2 _ hlt; rw [hh.2.1] at this; cases this
        · apply Nat.le_of_not_lt; intro hlt; have := hh.2.2 _ hlt; rw [hn.1] at this; cases this
      subst this
      exact h.good.kind hh.1 hi

theorem fin_iff {null : Bool} {s : State} (h : InvB null s (fun _ => False)) (hg : Good s.log) : (∃ v, s.task = .done v) ↔ ∃ v, .finished (some v) ∈ s.log := by
  have tk := h.tk
  obtain ⟨t, ht⟩ : ∃ t, s.task = t := ⟨_, rfl⟩
  rw [ht] at tk ⊢
  cases t with
  | null => simp; exact fun v => tk.2 _
  | running => simp; exact fun v => tk.2 _
  | done v => exact ⟨fun _ => ⟨v, tk.2⟩, fun _ => ⟨v, rfl⟩⟩
  | failed =>
    refine ⟨fun ⟨v, hv⟩ => (by cases hv), ?_⟩
    rintro ⟨v, hv⟩
    exfalso
    obtain ⟨a, b, he⟩ := List.append_of_mem hv
    have h2 := tk.2
    rw [he] at h2
    have h1 := hg a _ b he
    rcases List.mem_append.1 h2 with h2 | h2
    · exact h1 _ h2
    · rcases List.mem_cons.1 h2 with h2 | h2
      · cases h2
      · obtain ⟨c, d, rfl⟩ := List.append_of_mem h2
        exact hg (a ++ .finished (some v) :: c) (.finished none) d (by rw [he]; simp) (some v) (by simp)

theorem step_ub {null : Bool} {s : State} (h : Inv null s) (hu : s.ub = none) (op : Op) : (step s op).ub ≠ none ↔ bad null s.ref s.log op := by
  have hnull : s.task = .null ↔ null = true := by
    have tk := h.b.tk
    revert tk; unfold TaskOk
    cases s.task <;> simp +contextual
  unfold step
  rw [if_neg (by rw [hu]; simp)]
  cases op with
  | copy => dsimp only; split <;> simp_all [bad]
  | drop => simp [bad, hu]
  | then_ c =>
    dsimp only
    by_cases h0 : s.ref = 0
    · rw [if_pos h0]; simp [bad, hu, h0]
    rw [if_neg h0]
    by_cases h1 : s.ref ≠ 1
    · rw [if_pos h1]; simp [bad]; omega
    rw [if_neg h1]
    have hr : s.ref = 1 := by omega
    by_cases h2 : s.task = .null
    · rw [if_pos h2]; simp [bad, State.emit, hu, hr]
    rw [if_neg h2]
    by_cases h3 : c = false ∨ s.engine = false
    · rw [if_pos h3]; simp [bad, State.emit, hu, hr]
    rw [if_neg h3]
    rw [attach_ub hu .js (.inr (by cases he : s.engine <;> simp_all))]
    simp [bad, hr]
  | await init =>
    dsimp only
    by_cases h0 : s.ref = 0
    · rw [if_pos h0]; simp [bad, hu, h0]
    rw [if_neg h0]
    by_cases h1 : s.ref ≠ 1
    · rw [if_pos h1]; simp [bad]; omega
    rw [if_neg h1]
    have hr : s.ref = 1 := by omega
    by_cases h2 : s.task = .null
    · rw [if_pos h2]; simp [bad, hr, hnull.1 h2]
    rw [if_neg h2]
    have hn : ¬ null = true := fun x => h2 (hnull.2 x)
    by_cases h3 : init.isNull = true
    · rw [if_pos h3, attach_ub (by exact hu) .listener (.inl rfl)]; simp [bad, hr, hn]
    · rw [if_neg h3, attach_ub (by exact hu) .listener (.inl rfl)]; simp [bad, hr, hn]
  | finish r =>
    dsimp only
    by_cases h0 : s.task = .running
    · rw [if_pos h0]
      have tk := h.b.tk
      rw [h0] at tk
      have hno := h.b.t0 tk.2
      unfold State.resumeNext
      simp only [State.emit]
      obtain ⟨cs, hc⟩ : ∃ cs, s.conts = cs := ⟨_, rfl⟩
      rw [hc]
      cases cs with
      | nil =>
        have : ∀ k, Ev.attached 0 k ∉ s.log := by
          intro k hk
          rcases h.b.all hu 0 k hk with h | h | h
          · rw [hc] at h; cases h
          · rw [hno] at h; cases h
          · cases h
        cases r <;> simp [hu, bad, this]
      | cons c q =>
        have hh := conts_head h.b hu hc
        have hc0 : c.1 = 0 := by
          apply Classical.byContradiction
          intro hne
          have := hh.2.2 0 (by omega); rw [hno] at this; cases this
        rw [turn_ub (by exact hu)]
        cases r with
        | none => simp [bad]
        | some v =>
          have hen : s.engine = false ↔ Ev.engineGone ∈ s.log := by
            have := h.b.en
            cases he : s.engine
            · rw [he] at this
              constructor
              · intro _; apply Classical.byContradiction; intro hx; cases this.2 hx
              · intro _; rfl
            · rw [he] at this
              constructor
              · intro hx; cases hx
              · intro hx; exact absurd hx (this.1 rfl)
          simp only [bad, tk.1, true_and]
          rw [hen]
          constructor
          · rintro ⟨-, h1, h2⟩
            exact ⟨tk.2, h2, by have := hh.1; rw [hc0, h1] at this; exact this⟩
          · rintro ⟨-, h2, h3⟩
            refine ⟨⟨v, rfl⟩, ?_, h2⟩
            have := hh.1; rw [hc0] at this
            exact h.b.good.kind this h3
    · rw [if_neg h0]
      cases r with
      | none => simp [bad, hu]
      | some v =>
        simp only [hu, ne_eq, not_true_eq_false, bad, false_iff]
        rintro ⟨h1, h2, -⟩
        have tk := h.b.tk
        revert tk h0; unfold TaskOk
        cases s.task <;> simp [h1]
        · exact h2 _
        · exact h2 _
  | next =>
    dsimp only
    by_cases h0 : s.task = .running ∨ s.task = .null
    · rw [if_pos h0]
      have hno : ¬ ∃ v, s.task = .done v := by rintro ⟨v, hv⟩; rw [hv] at h0; simp at h0
      rw [fin_iff h.b h.b.good] at hno
      simp [hu, bad]
      intro v hv; exact absurd ⟨v, hv⟩ hno
    · rw [if_neg h0, resume_ub h.b hu, fin_iff h.b h.b.good]
      have hen : s.engine = false ↔ Ev.engineGone ∈ s.log := by
        have := h.b.en
        cases he : s.engine
        · rw [he] at this
          constructor
          · intro _; apply Classical.byContradiction; intro hx; cases this.2 hx
          · intro _; rfl
        · rw [he] at this
          constructor
          · intro hx; cases hx
          · intro hx; exact absurd hx (this.1 rfl)
      rw [hen]; rfl
  | kill i => dsimp only; split <;> simp [bad, State.emit, hu]
  | engineGone => dsimp only; split <;> simp [bad, State.emit, hu]

theorem ub_sticky (null : Bool) (p q : List Op) (h : (exec null p).ub ≠ none) : exec null (p ++ q) = exec null p := by
  induction q using snocInd with
  | nil => simp
  | snoc q op ih =>
    rw [← List.append_assoc, exec_snoc, ih]
    unfold step
    rw [if_pos]
    cases hx : (exec null p).ub <;> simp_all

theorem ref_exec (null : Bool) (ops : List Op) (hu : (exec null ops).ub = none) : (exec null ops).ref = handles ops := by
  induction ops using snocInd with
  | nil => rfl
  | snoc ops op ih =>
    have hp : (exec null ops).ub = none := by
      apply Classical.byContradiction
      intro hc; rw [ub_sticky null ops [op] hc] at hu; exact hc hu
    rw [exec_snoc] at hu ⊢
    rw [handles_snoc, ← ih hp]
    rcases step_ref hp op with h | h
    · exact absurd hu h
    · exact h

/-! ### C55 -/

/-- C55. Everything that happens was due: see `ok` for the exact condition of each event. -/
theorem C55_history (null : Bool) (ops : List Op) (pre : List Ev) (e : Ev) (post : List Ev) (h : (exec null ops).log = pre ++ e :: post) : ok pre e :=
  (inv_exec null ops).b.good pre e post h

/-- C55. No continuation has more than one turn, and none has one before the Task completed. -/
theorem C55_at_most_once (null : Bool) (ops : List Op) (i : Nat) :
    turns i (exec null ops).log ≤ 1 ∧ ((∀ r, .finished r ∉ (exec null ops).log) → turns i (exec null ops).log = 0) :=
  ⟨(inv_exec null ops).b.le i, fun h => (inv_exec null ops).b.t0 h i⟩

theorem next_conts {s : State} (hub : (step s .next).ub = none) (hf : s.task ≠ .running ∧ s.task ≠ .null) :
    (step s .next).conts = s.conts.tail ∧ (step s .next).task = s.task := by
  have hu : s.ub = none := by
    apply Classical.byContradiction
    intro hc
    have : step s .next = s := by unfold step; rw [if_pos (by cases hx : s.ub <;> simp_all)]
    rw [this] at hub; exact hc hub
  have hturn : ∀ (s : State) i k, (s.turn i k).conts = s.conts ∧ (s.turn i k).task = s.task := by
    intro s i k
    unfold State.turn State.emit
    obtain ⟨t, ht⟩ : ∃ t, s.task = t := ⟨_, rfl⟩
    cases t with
    | done v => cases k <;> simp only [ht] <;> split <;> simp [ht]
    | _ => simp [ht]
  unfold step at hub ⊢
  rw [if_neg (by rw [hu]; simp)] at hub ⊢
  simp only [hf.1, hf.2, or_self, if_false] at hub ⊢
  unfold State.resumeNext
  cases hc : s.conts with
  | nil => exact ⟨hc, rfl⟩
  | cons c r => exact hturn _ _ _

theorem sorted_len (l : List (Nat × Kind)) (b n : Nat) (h : l.Pairwise (fun x y => x.1 < y.1)) (hb : ∀ c ∈ l, b ≤ c.1) (hn : ∀ c ∈ l, c.1 < n) :
    l.length ≤ n - b := by
  induction l generalizing b with
  | nil => simp
  | cons c r ih =>
    rw [List.pairwise_cons] at h
    have := ih (c.1 + 1) h.2 (fun d hd => h.1 d hd) (fun d hd => hn d (by simp [hd]))
    have h1 := hb c (by simp)
    have h2 := hn c (by simp)
    simp; omega

theorem Good.fin {l : List Ev} (hg : Good l) {r r' : Option Var} (h1 : .finished r ∈ l) (h2 : .finished r' ∈ l) : r = r' := by
  obtain ⟨a, b, rfl⟩ := List.append_of_mem h1
  have h := hg a _ b rfl
  rcases List.mem_append.1 h2 with h2 | h2
  · exact absurd h2 (h r')
  · rcases List.mem_cons.1 h2 with h2 | h2
    · cases h2; rfl
    · obtain ⟨c, d, rfl⟩ := List.append_of_mem h2
      exact absurd (by simp) (hg (a ++ .finished r :: c) (.finished r') d (by simp) r)

theorem turn_log (s : State) (i : Nat) (k : Kind) : ∃ t, (s.turn i k).log = s.log ++ t := by
  unfold State.turn State.emit
  cases s.task with
  | done v =>
    cases k <;> dsimp only <;> split
    · exact ⟨_, rfl⟩
    · exact ⟨[], by simp⟩
    · exact ⟨_, rfl⟩
    · exact ⟨_, rfl⟩
  | failed => exact ⟨_, rfl⟩
  | _ => exact ⟨[], by simp⟩
theorem resume_log (s : State) : ∃ t, s.resumeNext.log = s.log ++ t := by
  unfold State.resumeNext
  cases s.conts with
  | nil => exact ⟨[], by simp⟩
  | cons c r => exact turn_log _ _ _
theorem attach_log (s : State) (k : Kind) : ∃ t, (s.attach k).log = s.log ++ .attached s.n k :: t := by
  obtain ⟨t, ht⟩ := turn_log (({ s with n := s.n + 1 } : State).emit (.attached s.n k)) s.n k
  have ht : _ = (s.log ++ [.attached s.n k]) ++ t := ht
  unfold State.attach
  by_cases hr : s.task = .running
  · simp only [hr]; exact ⟨[], rfl⟩
  · refine ⟨t, ?_⟩
    revert ht hr; dsimp only
    cases s.task <;> simp
theorem step_log (s : State) (op : Op) : ∃ t, (step s op).log = s.log ++ t := by
  unfold step
  by_cases hub : s.ub.isSome = true
  · rw [if_pos hub]; exact ⟨[], by simp⟩
  rw [if_neg hub]
  cases op with
  | copy => dsimp only; split <;> exact ⟨[], by simp⟩
  | drop => exact ⟨[], by simp⟩
  | then_ c =>
    dsimp only
    split; · exact ⟨[], by simp⟩
    split; · exact ⟨[], by simp⟩
    split; · exact ⟨_, rfl⟩
    split; · exact ⟨_, rfl⟩
    obtain ⟨t, ht⟩ := attach_log s .js; exact ⟨_, ht⟩
  | await init =>
    dsimp only
    split; · exact ⟨[], by simp⟩
    split; · exact ⟨[], by simp⟩
    split; · exact ⟨[], by simp⟩
    split
    · obtain ⟨t, ht⟩ := attach_log ({ s with alive := upd s.alive s.n true } : State) .listener; exact ⟨_, ht⟩
    · obtain ⟨t, ht⟩ := attach_log (({ s with alive := upd s.alive s.n true, val := upd s.val s.n init } : State).emit (.preset s.n init)) .listener
      exact ⟨_, ht.trans (List.append_assoc _ _ _)⟩
  | finish r =>
    dsimp only
    split
    · obtain ⟨t, ht⟩ := resume_log (({ s with task := (match r with | some x => .done x | none => .failed) } : State).emit (.finished r))
      exact ⟨_, ht.trans (List.append_assoc _ _ _)⟩
    · exact ⟨[], by simp⟩
  | next =>
    dsimp only
    split
    · exact ⟨[], by simp⟩
    · exact resume_log _
  | kill i => dsimp only; split <;> first | exact ⟨_, rfl⟩ | exact ⟨[], by simp⟩
  | engineGone => dsimp only; split <;> first | exact ⟨_, rfl⟩ | exact ⟨[], by simp⟩
theorem exec_log (null : Bool) (p q : List Op) : ∃ t, (exec null (p ++ q)).log = (exec null p).log ++ t := by
  induction q using snocInd with
  | nil => exact ⟨[], by simp⟩
  | snoc q op ih =>
    obtain ⟨t, ht⟩ := ih
    obtain ⟨u, hu⟩ := step_log (exec null (p ++ q)) op
    rw [← List.append_assoc, exec_snoc, hu, ht]
    exact ⟨t ++ u, by simp⟩

/-- C55. When the functions called by the completing Task have returned, every continuation that was attached, before or after the
completion or in between by one of these functions, has had its turn, and exactly this happened in it: nothing if the Task failed; the
JS function was called with the result; the listener got the result, or was skipped since it had been destroyed (`C55_history`).
The result is the value for the first continuation and a moved-from QVariant for the others. -/
theorem C55_answered (null : Bool) (ops : List Op) (m : Nat) (r : Option Var) (i : Nat) (k : Kind)
    (hf : .finished r ∈ (exec null ops).log) (ha : .attached i k ∈ (exec null ops).log) (hm : attachedN (exec null ops).log ≤ m)
    (hu : (exec null (ops ++ List.replicate m .next)).ub = none) :
    ∃ e, (exec null (ops ++ List.replicate m .next)).log.filter (isTurn i) = [e] ∧
      match r, k with
      | none, _ => e = .passed i
      | some v, .js => e = .called i (if i = 0 then v else .invalid)
      | some v, .listener => e = .set i (if i = 0 then v else .invalid) ∨ e = .skipped i := by
  have hI := inv_exec null ops
  have hu0 : (exec null ops).ub = none := by
    apply Classical.byContradiction
    intro hc; rw [ub_sticky null ops _ hc] at hu; exact hc hu
  have hnr : (exec null ops).task ≠ .running ∧ (exec null ops).task ≠ .null := by
    have tk := hI.b.tk
    revert tk; unfold TaskOk
    cases (exec null ops).task with
    | null => exact fun h => absurd hf (h.2 r)
    | running => exact fun h => absurd hf (h.2 r)
    | _ => simp
  have hconts : ∀ j, (exec null (ops ++ List.replicate j .next)).ub = none →
      (exec null (ops ++ List.replicate j .next)).conts = (exec null ops).conts.drop j ∧ (exec null (ops ++ List.replicate j .next)).task = (exec null ops).task := by
    intro j
    induction j with
    | zero => intro _; simp
    | succ j ih =>
      intro huj
      have hsp : ops ++ List.replicate (j + 1) Op.next = (ops ++ List.replicate j .next) ++ [.next] := by
        rw [List.append_assoc, ← List.replicate_succ']
      rw [hsp] at huj ⊢
      have hu' : (exec null (ops ++ List.replicate j .next)).ub = none := by
        apply Classical.byContradiction
        intro hc; rw [ub_sticky null _ [.next] hc] at huj; exact hc huj
      obtain ⟨i1, i2⟩ := ih hu'
      rw [exec_snoc] at huj ⊢
      have := next_conts huj (by rw [i2]; exact hnr)
      rw [this.1, this.2, i1, i2]
      exact ⟨by simp, rfl⟩
  have hlen : (exec null ops).conts.length ≤ m := by
    have := sorted_len _ 0 (exec null ops).n hI.b.srt (by simp) (fun c hc => hI.b.ids _ _ (hI.b.cs c hc).1)
    have hn := hI.b.nn
    omega
  have hJ := inv_exec null (ops ++ List.replicate m .next)
  have hc0 : (exec null (ops ++ List.replicate m .next)).conts = [] := by rw [(hconts m hu).1, List.drop_eq_nil_of_le hlen]
  have hmem : ∀ e, e ∈ (exec null ops).log → e ∈ (exec null (ops ++ List.replicate m .next)).log := by
    intro e he; obtain ⟨t, ht⟩ := exec_log null ops (List.replicate m .next); rw [ht]; simp [he]
  have ha' := hmem _ ha
  have hf' := hmem _ hf
  generalize exec null (ops ++ List.replicate m .next) = s at *
  have ht : turns i s.log = 1 := by
    rcases hJ.b.all hu i k ha' with h | h | h
    · rw [hc0] at h; cases h
    · exact h
    · cases h
  rw [turns, List.countP_eq_length_filter] at ht
  obtain ⟨e, he⟩ := List.length_eq_one_iff.1 ht
  refine ⟨e, he, ?_⟩
  have hem : e ∈ s.log.filter (isTurn i) := by rw [he]; simp
  rw [List.mem_filter] at hem
  obtain ⟨p, q, hpq⟩ := List.append_of_mem hem.1
  have hok := hJ.b.good p e q hpq
  have hsub : ∀ x, x ∈ p → x ∈ s.log := fun x hx => by rw [hpq]; simp [hx]
  have hit := hem.2
  cases e <;> simp only [isTurn, decide_eq_true_eq, Bool.false_eq_true] at hit
  · subst hit
    obtain ⟨h1, h2, ⟨v, h3, h3'⟩, h4⟩ := hok
    have := hJ.b.good.kind ha' (hsub _ h1)
    have := hJ.b.good.fin hf' (hsub _ h3)
    subst this; subst k; rw [h3']
  · subst hit
    obtain ⟨h1, h2, ⟨v, h3, h3'⟩, h4⟩ := hok
    have := hJ.b.good.kind ha' (hsub _ h1)
    have := hJ.b.good.fin hf' (hsub _ h3)
    subst this; subst k; rw [h3']; exact .inl rfl
  · subst hit
    obtain ⟨h1, h2, ⟨v, h3⟩, h4⟩ := hok
    have := hJ.b.good.kind ha' (hsub _ h1)
    have := hJ.b.good.fin hf' (hsub _ h3)
    subst this; subst k; exact .inr rfl
  · subst hit
    obtain ⟨-, h2, h3⟩ := hok
    have := hJ.b.good.fin hf' (hsub _ h3)
    subst this; rfl


/-- C55. Undefined behaviour occurs exactly for `then`/`await` on a QmlTask of which another copy exists, for `await` on a null one, and when the
continuation whose turn it is has to call a JS function whose engine was destroyed. -/
theorem C55_ub_iff (null : Bool) (ops : List Op) :
    (exec null ops).ub ≠ none ↔ ∃ p op q, ops = p ++ op :: q ∧ (exec null p).ub = none ∧ bad null (handles p) (exec null p).log op := by
  constructor
  · intro h
    induction ops using snocInd with
    | nil => exact absurd rfl h
    | snoc ops op ih =>
      by_cases hp : (exec null ops).ub = none
      · refine ⟨ops, op, [], rfl, hp, ?_⟩
        rw [exec_snoc, step_ub (inv_exec null ops) hp, ref_exec null ops hp] at h
        exact h
      · obtain ⟨p, o, q, e, h1, h2⟩ := ih hp
        exact ⟨p, o, q ++ [op], by rw [e]; simp, h1, h2⟩
  · rintro ⟨p, op, q, rfl, h1, h2⟩
    have : (exec null (p ++ [op])).ub ≠ none := by
      rw [exec_snoc, step_ub (inv_exec null p) h1, ref_exec null p h1]; exact h2
    rw [show p ++ op :: q = (p ++ [op]) ++ q by simp, ub_sticky null _ q this]
    exact this

/-- The state without the count of handles. Proof vocabulary, no counterpart in /repo. -/
def State.noRef (s : State) : State := { s with ref := 0 }

/-- What a QmlTask object is needed for. Specification vocabulary, no counterpart in /repo. -/
def needsHandle : Op → Bool | .copy => true | .drop => true | .then_ _ => true | .await _ => true | _ => false

theorem noRef_turn (s : State) (i : Nat) (k : Kind) : (s.turn i k).noRef = s.noRef.turn i k := by
  unfold State.turn State.emit State.noRef
  obtain ⟨t, ht⟩ : ∃ t, s.task = t := ⟨_, rfl⟩
  cases t with
  | done v => cases k <;> simp only [ht] <;> split <;> rfl
  | _ => simp only [ht]
theorem noRef_resume (s : State) : s.resumeNext.noRef = s.noRef.resumeNext := by
  unfold State.resumeNext
  rw [show s.noRef.conts = s.conts from rfl]
  cases s.conts with
  | nil => rfl
  | cons c r => exact noRef_turn _ _ _
theorem noRef_step (s : State) (op : Op) (h : needsHandle op = false) : (step s op).noRef = step s.noRef op := by
  unfold step
  rw [show s.noRef.ub = s.ub from rfl]
  by_cases hub : s.ub.isSome = true
  · rw [if_pos hub, if_pos hub]
  rw [if_neg hub, if_neg hub]
  cases op with
  | finish r =>
    dsimp only
    rw [show s.noRef.task = s.task from rfl]
    by_cases h0 : s.task = .running
    · rw [if_pos h0, if_pos h0]; exact noRef_resume _
    · rw [if_neg h0, if_neg h0]
  | next =>
    dsimp only
    rw [show s.noRef.task = s.task from rfl]
    by_cases h0 : s.task = .running ∨ s.task = .null
    · rw [if_pos h0, if_pos h0]
    · rw [if_neg h0, if_neg h0]; exact noRef_resume _
  | kill i =>
    dsimp only
    rw [show s.noRef.alive = s.alive from rfl]
    by_cases h0 : s.alive i = true
    · rw [if_pos h0, if_pos h0]; rfl
    · rw [if_neg h0, if_neg h0]
  | engineGone =>
    dsimp only
    rw [show s.noRef.engine = s.engine from rfl]
    by_cases h0 : s.engine = true
    · rw [if_pos h0, if_pos h0]; rfl
    · rw [if_neg h0, if_neg h0]
  | _ => cases h

/-- C55. Destroying QmlTask objects, even all of them, changes nothing of what happens without one: the Task completes, its continuations
run and its listeners are set all the same. -/
theorem C55_drop_harmless (null : Bool) (ops rest : List Op) (d : Nat) (h : ∀ op ∈ rest, needsHandle op = false) :
    (exec null (ops ++ List.replicate d .drop ++ rest)).log = (exec null (ops ++ rest)).log ∧
    (exec null (ops ++ List.replicate d .drop ++ rest)).val = (exec null (ops ++ rest)).val ∧
    (exec null (ops ++ List.replicate d .drop ++ rest)).ub = (exec null (ops ++ rest)).ub := by
  have hd : (exec null (ops ++ List.replicate d .drop)).noRef = (exec null ops).noRef := by
    induction d with
    | zero => simp
    | succ d ih =>
      rw [List.replicate_succ', ← List.append_assoc, exec_snoc, ← ih]
      unfold step
      split <;> rfl
  have key : (exec null (ops ++ List.replicate d .drop ++ rest)).noRef = (exec null (ops ++ rest)).noRef := by
    induction rest using snocInd with
    | nil => simpa using hd
    | snoc rest op ih =>
      have ih := ih (fun o ho => h o (by simp [ho]))
      rw [← List.append_assoc, ← List.append_assoc, exec_snoc, exec_snoc, noRef_step _ _ (h op (by simp)), noRef_step _ _ (h op (by simp)), ih]
  have k1 := congrArg State.log key
  have k2 := congrArg State.val key
  have k3 := congrArg State.ub key
  exact ⟨k1, k2, k3⟩

theorem null_iff (null : Bool) (ops : List Op) : (exec null ops).task = .null ↔ null = true := by
  have tk := (inv_exec null ops).b.tk
  revert tk; unfold TaskOk
  cases (exec null ops).task <;> simp +contextual

/-- C55. `then` on a null QmlTask or with something not callable (a function of a destroyed engine is not) is diagnosed and does nothing else. -/
theorem C55_diagnosed (null : Bool) (ops : List Op) (c : Bool) (hub : (exec null ops).ub = none) (h1 : handles ops = 1)
    (hbad : null = true ∨ c = false ∨ .engineGone ∈ (exec null ops).log) :
    exec null (ops ++ [.then_ c]) = { exec null ops with log := (exec null ops).log ++ [.warned] } := by
  rw [exec_snoc]
  have hr := ref_exec null ops hub
  have hn := null_iff null ops
  have he := (inv_exec null ops).b.en
  generalize exec null ops = s at *
  unfold step
  rw [if_neg (by rw [hub]; simp)]
  dsimp only
  rw [if_neg (by omega), if_neg (by omega)]
  by_cases h2 : s.task = .null
  · rw [if_pos h2]; rfl
  · rw [if_neg h2, if_pos]
    · rfl
    · rcases hbad with h | h | h
      · exact absurd (hn.2 h) h2
      · exact .inl h
      · right
        cases hx : s.engine
        · rfl
        · exact absurd h (he.1 hx)

/-- C55. `then` with a function / `await` on a connected QmlTask attaches exactly one continuation. -/
theorem C55_attaches (ops : List Op) (hub : (exec false ops).ub = none) (h1 : handles ops = 1) :
    (.engineGone ∉ (exec false ops).log → ∃ t, (exec false (ops ++ [.then_ true])).log =
      (exec false ops).log ++ .attached (attachedN (exec false ops).log) .js :: t ∧ attachedN t = 0) ∧
    (∀ x, ∃ t, (exec false (ops ++ [.await x])).log = (exec false ops).log ++
      (if x.isNull then [] else [.preset (attachedN (exec false ops).log) x]) ++ .attached (attachedN (exec false ops).log) .listener :: t ∧ attachedN t = 0) := by
  have hI := inv_exec false ops
  have hr := ref_exec false ops hub
  have hn := null_iff false ops
  have h2 : (exec false ops).task ≠ .null := by intro hx; cases hn.1 hx
  have he := hI.b.en
  have hnn := hI.b.nn
  have hJ1 := (inv_exec false (ops ++ [.then_ true])).b.nn
  have hJ2 := fun x => (inv_exec false (ops ++ [.await x])).b.nn
  have hnt : ∀ (s : State) i k, (s.turn i k).n = s.n := by
    intro s i k
    unfold State.turn State.emit
    cases s.task with
    | done v => cases k <;> dsimp only <;> split <;> rfl
    | _ => rfl
  have hna : ∀ (s : State) k, (s.attach k).n = s.n + 1 := by
    intro s k
    have := hnt (({ s with n := s.n + 1 } : State).emit (.attached s.n k)) s.n k
    unfold State.attach
    revert this
    cases s.task <;> first | exact id | intro _; rfl
  have hcount : ∀ (a t : List Ev) e, isAttached e = true → attachedN (a ++ e :: t) = attachedN a + 1 + attachedN t := by
    intro a t e he
    simp only [attachedN, List.countP_append, List.countP_cons, he, if_pos]; omega
  simp only [exec_snoc] at hJ1 hJ2 ⊢
  generalize exec false ops = s at *
  refine ⟨fun hen => ?_, fun x => ?_⟩
  · have e : step s (.then_ true) = s.attach .js := by
      unfold step
      rw [if_neg (by rw [hub]; simp)]
      dsimp only
      rw [if_neg (by omega), if_neg (by omega), if_neg h2, if_neg]
      simp [he.2 hen]
    rw [e] at hJ1 ⊢
    obtain ⟨t, ht⟩ := attach_log s .js
    rw [hna, ht, hcount _ _ _ rfl] at hJ1
    rw [← hnn]
    exact ⟨t, ht, by omega⟩
  · have hJ := hJ2 x
    have e : step s (.await x) = if x.isNull then ({ s with alive := upd s.alive s.n true } : State).attach .listener
        else (({ s with alive := upd s.alive s.n true, val := upd s.val s.n x } : State).emit (.preset s.n x)).attach .listener := by
      unfold step
      rw [if_neg (by rw [hub]; simp)]
      dsimp only
      rw [if_neg (by omega), if_neg (by omega), if_neg h2]
    rw [e] at hJ ⊢
    rw [← hnn]
    by_cases h3 : x.isNull = true
    · rw [if_pos h3] at hJ ⊢
      obtain ⟨t, ht⟩ := attach_log ({ s with alive := upd s.alive s.n true } : State) .listener
      rw [hna, ht, hcount _ _ _ rfl] at hJ
      dsimp only at hJ ht
      exact ⟨t, by rw [ht]; simp [h3], by omega⟩
    · rw [if_neg h3] at hJ ⊢
      obtain ⟨t, ht⟩ := attach_log (({ s with alive := upd s.alive s.n true, val := upd s.val s.n x } : State).emit (.preset s.n x)) .listener
      rw [hna, ht, hcount _ _ _ rfl] at hJ
      have ht : _ = (s.log ++ [.preset s.n x]) ++ Ev.attached s.n .listener :: t := ht
      have hJ : s.n + 1 = attachedN (s.log ++ [.preset s.n x]) + 1 + attachedN t := hJ
      rw [attachedN_snoc] at hJ
      refine ⟨t, by rw [ht]; simp [h3], ?_⟩
      simp [isAttached] at hJ; omega

/-- Found: copying a QmlTask and then using either copy runs into Q_UNREACHABLE. -/
theorem C55_copy_ub : (exec false [.copy, .then_ true]).ub = some .unreachable ∧ (exec false [.copy, .await .invalid]).ub = some .unreachable := by decide

/-- Found: `await` on a null QmlTask dereferences an empty optional (`then` checks, `await` does not). -/
theorem C55_await_null_ub : (exec true [.await .invalid]).ub = some .nullopt := by decide

/-- Found: the second continuation gets a moved-from QVariant. -/
theorem C55_second_gets_moved_from : (exec false [.then_ true, .await .invalid, .finish (some (.val 7)), .next, .then_ true]).log =
    [.attached 0 .js, .attached 1 .listener, .finished (some (.val 7)), .called 0 (.val 7), .set 1 .invalid, .attached 2 .js, .called 2 .invalid] := by decide

/-- Found: a Task that completes after the QML engine was destroyed dereferences the engine. -/
theorem C55_engine_ub : (exec false [.then_ true, .engineGone, .drop, .finish (some (.val 7))]).ub = some .engine := by decide

/-- The hypotheses are met: a JS function that attaches another one, kills a listener and drops the handle before it returns. -/
theorem C55_example : (exec false [.then_ true, .await (.val 1), .await .invalid, .finish (some (.val 7)), .then_ true, .kill 1, .drop, .next, .next]).log =
    [.attached 0 .js, .preset 1 (.val 1), .attached 1 .listener, .attached 2 .listener, .finished (some (.val 7)), .called 0 (.val 7),
     .attached 3 .js, .called 3 .invalid, .killed 1, .skipped 1, .set 2 .invalid] ∧
    (exec false [.then_ true, .await (.val 1), .await .invalid, .finish (some (.val 7)), .then_ true, .kill 1, .drop, .next, .next]).ub = none := by decide

/-! ### C64: the value of a listener -/

/-- C64. The `value` property of a listener is what it was given last: the intermediate value, then the result; invalid before. -/
theorem C64_value (null : Bool) (ops : List Op) (i : Nat) :
    (exec null ops).val i = ((shown i (exec null ops).log).getLast?).getD .invalid := (inv_exec null ops).b.vl i

/-- The results listener `i` was given in `l`. Specification vocabulary, no counterpart in /repo. -/
def results (i : Nat) (l : List Ev) : List Var := l.filterMap (fun | .set j x => if j = i then some x else none | _ => none)

/-- `s'` is reached from `s`, listener `i` changing as recorded. Proof vocabulary, no counterpart in /repo. -/
def Ext (i : Nat) (s s' : State) : Prop := ∃ t, s'.log = s.log ++ t ∧ s'.val i = ((results i t).getLast?).getD (s.val i)

theorem Ext.same {i : Nat} {s s' : State} (hl : s'.log = s.log) (hv : s'.val i = s.val i) : Ext i s s' := ⟨[], by simp [hl], by simp [results, hv]⟩
theorem Ext.trans {i : Nat} {a b c : State} (h1 : Ext i a b) (h2 : Ext i b c) : Ext i a c := by
  obtain ⟨t, t1, t2⟩ := h1
  obtain ⟨u, u1, u2⟩ := h2
  refine ⟨t ++ u, by rw [u1, t1]; simp, ?_⟩
  rw [u2, t2]
  simp only [results, List.filterMap_append, List.getLast?_append]
  cases (List.filterMap _ u).getLast? <;> simp
theorem Ext.one {i : Nat} {s s' : State} {e : Ev} (hl : s'.log = s.log ++ [e]) (he : ∀ x, e ≠ .set i x) (hv : s'.val i = s.val i) : Ext i s s' := by
  refine ⟨[e], hl, ?_⟩
  have : results i [e] = [] := by
    simp only [results, List.filterMap_cons, List.filterMap_nil]
    cases e <;> simp_all
  rw [this]; exact hv
theorem ext_turn (j : Nat) (s : State) (i : Nat) (k : Kind) : Ext j s (s.turn i k) := by
  unfold State.turn State.emit
  cases s.task with
  | done v =>
    cases k <;> dsimp only <;> split
    · exact .one (e := .called i _) rfl (by simp) rfl
    · exact .same rfl rfl
    · refine ⟨_, rfl, ?_⟩
      dsimp only
      by_cases h : j = i
      · subst h; rw [upd_same]; simp [results]
      · rw [upd_other _ _ h]; simp [results, Ne.symm h]
    · exact .one (e := .skipped i) rfl (by simp) rfl
  | failed => exact .one (e := .passed i) rfl (by simp) rfl
  | _ => exact .same rfl rfl
theorem ext_resume (j : Nat) (s : State) : Ext j s s.resumeNext := by
  unfold State.resumeNext
  cases s.conts with
  | nil => exact .same rfl rfl
  | cons c r => exact Ext.trans (.same rfl rfl) (ext_turn j _ _ _)
theorem ext_attach (j : Nat) (s : State) (k : Kind) : Ext j s (s.attach k) := by
  have h1 : Ext j s (({ s with n := s.n + 1 } : State).emit (.attached s.n k)) := .one (e := .attached s.n k) rfl (by simp) rfl
  have h2 := h1.trans (ext_turn j _ s.n k)
  unfold State.attach
  by_cases hr : s.task = .running
  · simp only [hr]; exact .one (e := .attached s.n k) rfl (by simp) rfl
  · revert h2 hr; dsimp only
    cases s.task <;> simp
theorem ext_step (j : Nat) (s : State) (op : Op) (hj : j < s.n) : Ext j s (step s op) := by
  unfold step
  by_cases hub : s.ub.isSome = true
  · rw [if_pos hub]; exact .same rfl rfl
  rw [if_neg hub]
  cases op with
  | copy => dsimp only; split <;> exact .same rfl rfl
  | drop => exact .same rfl rfl
  | then_ c =>
    dsimp only
    split; · exact .same rfl rfl
    split; · exact .same rfl rfl
    split; · exact .one (e := .warned) rfl (by simp) rfl
    split; · exact .one (e := .warned) rfl (by simp) rfl
    exact ext_attach j s .js
  | await init =>
    dsimp only
    split; · exact .same rfl rfl
    split; · exact .same rfl rfl
    split; · exact .same rfl rfl
    split
    · exact Ext.trans (.same rfl rfl) (ext_attach j _ .listener)
    · refine Ext.trans ?_ (ext_attach j _ .listener)
      refine .one (e := .preset s.n init) rfl (by simp) ?_
      exact upd_other _ _ (by omega)
  | finish r =>
    dsimp only
    split
    · refine Ext.trans ?_ (ext_resume j _)
      exact .one (e := .finished r) rfl (by simp) rfl
    · exact .same rfl rfl
  | next =>
    dsimp only
    split
    · exact .same rfl rfl
    · exact ext_resume j _
  | kill i =>
    dsimp only; split
    · exact .one (e := .killed i) rfl (by simp) rfl
    · exact .same rfl rfl
  | engineGone =>
    dsimp only; split
    · exact .one (e := .engineGone) rfl (by simp) rfl
    · exact .same rfl rfl

/-- C64. From then on the value changes exactly when the listener is given the result (so at most once, `C55_at_most_once`): it never changes if
the Task fails or never completes. -/
theorem C64_changes (null : Bool) (ops rest : List Op) (i : Nat) (k : Kind) (h : .attached i k ∈ (exec null ops).log) :
    ∃ t, (exec null (ops ++ rest)).log = (exec null ops).log ++ t ∧
      (exec null (ops ++ rest)).val i = ((results i t).getLast?).getD ((exec null ops).val i) := by
  show Ext i _ _
  induction rest using snocInd with
  | nil => rw [List.append_nil]; exact .same rfl rfl
  | snoc rest op ih =>
    rw [← List.append_assoc, exec_snoc]
    refine ih.trans (ext_step i _ op ?_)
    obtain ⟨t, ht⟩ := exec_log null ops rest
    exact (inv_exec null (ops ++ rest)).b.ids i k (by rw [ht]; simp [h])

theorem nv_turn {s : State} {i : Nat} (k : Kind) (h : ∀ j, s.n ≤ j → s.val j = .invalid) (hi : i < s.n) :
    ∀ j, (s.turn i k).n ≤ j → (s.turn i k).val j = .invalid := by
  unfold State.turn State.emit
  cases s.task with
  | done v =>
    cases k <;> dsimp only <;> split
    · exact h
    · exact h
    · intro j hj
      dsimp only at hj ⊢
      rw [upd_other _ _ (by omega)]
      exact h j hj
    · exact h
  | _ => exact h
theorem nv_resume {s : State} (h : ∀ j, s.n ≤ j → s.val j = .invalid) (hc : ∀ c ∈ s.conts, c.1 < s.n) :
    ∀ j, s.resumeNext.n ≤ j → s.resumeNext.val j = .invalid := by
  unfold State.resumeNext
  cases hcs : s.conts with
  | nil => exact h
  | cons c r => exact nv_turn (s := { s with conts := r }) c.2 h (hc c (by rw [hcs]; simp))
theorem nv_attach {s : State} (k : Kind) (h : ∀ j, s.n + 1 ≤ j → s.val j = .invalid) :
    ∀ j, (s.attach k).n ≤ j → (s.attach k).val j = .invalid := by
  have h2 := nv_turn (s := ({ s with n := s.n + 1 } : State).emit (.attached s.n k)) (i := s.n) k h (Nat.lt_succ_self _)
  unfold State.attach
  by_cases hr : s.task = .running
  · simp only [hr]; exact h
  · revert h2 hr; dsimp only
    cases s.task <;> simp
theorem nv_exec (null : Bool) (ops : List Op) : ∀ j, (exec null ops).n ≤ j → (exec null ops).val j = .invalid := by
  induction ops using snocInd with
  | nil => intro j _; rfl
  | snoc ops op ih =>
    rw [exec_snoc]
    have hI := inv_exec null ops
    have hc : ∀ c ∈ (exec null ops).conts, c.1 < (exec null ops).n := fun c hc => hI.b.ids _ _ (hI.b.cs c hc).1
    generalize exec null ops = s at *
    unfold step
    by_cases hub : s.ub.isSome = true
    · rw [if_pos hub]; exact ih
    rw [if_neg hub]
    cases op with
    | copy => dsimp only; split <;> exact ih
    | drop => exact ih
    | then_ c =>
      dsimp only
      split; · exact ih
      split; · exact ih
      split; · exact ih
      split; · exact ih
      exact nv_attach .js (fun j hj => ih j (by omega))
    | await init =>
      dsimp only
      split; · exact ih
      split; · exact ih
      split; · exact ih
      split
      · exact nv_attach (s := { s with alive := upd s.alive s.n true }) .listener (fun j hj => ih j (by dsimp only at hj; omega))
      · refine nv_attach (s := (({ s with alive := upd s.alive s.n true, val := upd s.val s.n init } : State).emit (.preset s.n init))) .listener ?_
        intro j hj
        dsimp only [State.emit] at hj ⊢
        rw [upd_other _ _ (by omega)]; exact ih j (by omega)
    | finish r =>
      dsimp only
      split
      · exact nv_resume (s := ({ s with task := _ } : State).emit (.finished r)) ih hc
      · exact ih
    | next =>
      dsimp only
      split
      · exact ih
      · exact nv_resume ih hc
    | kill i => dsimp only; split <;> exact ih
    | engineGone => dsimp only; split <;> exact ih

/-- C64. Directly after `await(x)` on a Task that has not completed, the value is `x`, or invalid if `x` is null (of whatever type). -/
theorem C64_intermediate (ops : List Op) (x : Var) (hub : (exec false ops).ub = none) (h1 : handles ops = 1)
    (hf : ∀ r, .finished r ∉ (exec false ops).log) :
    (exec false (ops ++ [.await x])).val (attachedN (exec false ops).log) = if x.isNull then .invalid else x := by
  have hI := inv_exec false ops
  have hr := ref_exec false ops hub
  have hrun : (exec false ops).task = .running := by
    have tk := hI.b.tk
    have hn := null_iff false ops
    revert tk hn; unfold TaskOk
    cases (exec false ops).task with
    | running => exact fun _ _ => rfl
    | null => intro h; cases h.1
    | done v => exact fun h => absurd h.2 (hf _)
    | failed => exact fun h => absurd h.2 (hf _)
  rw [exec_snoc, ← hI.b.nn]
  have hv : (exec false ops).val (exec false ops).n = .invalid := nv_exec false ops _ (Nat.le_refl _)
  generalize exec false ops = s at *
  unfold step
  rw [if_neg (by rw [hub]; simp)]
  dsimp only
  rw [if_neg (by omega), if_neg (by omega), if_neg (by rw [hrun]; simp)]
  by_cases h3 : x.isNull = true
  · rw [if_pos h3, if_pos h3]
    simp only [State.attach, hrun, State.emit]; exact hv
  · rw [if_neg h3, if_neg h3]
    simp only [State.attach, hrun, State.emit, upd_same]

/-- C64. A listener whose Task fails shows the intermediate value for ever; one whose Task completes shows its value; a second one loses it. -/
theorem C64_example :
    (exec false [.await (.val 1), .finish none, .next]).val 0 = .val 1 ∧
    (exec false [.await (.val 1), .await (.val 2), .await (.nullOf 3)]).val 2 = .invalid ∧
    (exec false [.await (.val 1), .await (.val 2), .finish (some (.val 7)), .next]).val 0 = .val 7 ∧
    (exec false [.await (.val 1), .await (.val 2), .finish (some (.val 7)), .next]).val 1 = .invalid := by decide

end QCoro.QmlTask
