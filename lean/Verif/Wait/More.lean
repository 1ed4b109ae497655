import Verif.Wait.Props
import Verif.Await.Props
/-
Properties C42 (QThread waits), C49 (waitForTimeout), C50 (sleepFor/sleepUntil), C51 (D-Bus waitForFinished),
C52 (QWebSocket open/ping).
-/
set_option linter.unusedSimpArgs false
namespace QCoro.Wait
variable {ρ δ β : Type}

/-! ### C49: QCoroTimer::waitForTimeout -/

/-- `QCoroTimer::waitForTimeout` (`qcoro/core/qcorotimer.cpp:39-43`); the state is `isActive()`.  The wait has no timeout. -/
def timerWaitForTimeout (d : Option Bool) : Call Unit Bool Unit :=
  match d with
  | none => .ret .nullDeref none
  | some active => if active then .wait (ownSignal .timeout) (fun _ dv => (.ok (), dv)) else .ret (.ok ()) (some active)

/-- Not active: at once. -/
theorem C49_waitForTimeout_immediate (ops : List (Op DSig Bool)) : (timerWaitForTimeout (some false)).out (-1) false ops = some (.ok ()) := rfl

/-- Active: it returns once, only after a timeout, and it does return after one. -/
theorem C49_waitForTimeout (ops : List (Op DSig Bool)) :
    ((timerWaitForTimeout (some true)).out (-1) true ops = none ∨ (timerWaitForTimeout (some true)).out (-1) true ops = some (.ok ())) ∧
    ((timerWaitForTimeout (some true)).out (-1) true ops = some (.ok ()) → .timeout ∈ heard ops) ∧
    (.timeout ∈ heard ops → ∃ n m, (timerWaitForTimeout (some true)).out (-1) true (ops ++ List.replicate n .handler ++ List.replicate m .deliver) = some (.ok ())) ∧
    (∀ ops', (timerWaitForTimeout (some true)).out (-1) true ops = some (.ok ()) → (timerWaitForTimeout (some true)).out (-1) true (ops ++ ops') = some (.ok ())) := by
  have key : ∀ ops, (timerWaitForTimeout (some true)).out (-1) true ops = (run (ownSignal .timeout) (fun _ dv => (.ok (), dv)) (-1) true ops).out := fun _ => rfl
  have val : ∀ ops, (run (ownSignal .timeout) (fun (_ : Option Unit) (dv : Option Bool) => (Res.ok (), dv)) (-1) true ops).out = none ∨
      (run (ownSignal .timeout) (fun (_ : Option Unit) (dv : Option Bool) => (Res.ok (), dv)) (-1) true ops).out = some (.ok ()) ∧ .timeout ∈ heard ops := by
    intro ops
    cases hx : (run (ownSignal .timeout) (fun (_ : Option Unit) (dv : Option Bool) => (Res.ok (), dv)) (-1) true ops).out with
    | none => exact .inl rfl
    | some x =>
      right
      rcases returned _ _ _ _ _ hx with ⟨pre, post, rfl, v, e, ⟨y, hy, hc⟩, _⟩ | ⟨pre, post, rfl, _, e1, _⟩
      · have := (own_ends .timeout y).1 (by obtain ⟨c, hc, e⟩ := hc; exact ⟨c, hc, by simp [e]⟩)
        exact ⟨by rw [e], heard_prefix _ _ (this ▸ hy)⟩
      · omega
  simp only [key]
  refine ⟨(val ops).imp id And.left, ?_, ?_, ?_⟩
  · intro h; rcases val ops with h' | h'
    · rw [h] at h'; cases h'
    · exact h'.2
  · intro h
    obtain ⟨n, m, e⟩ := completes (ownSignal .timeout) (fun (_ : Option Unit) (dv : Option Bool) => (Res.ok (), dv)) (-1) true ops h (by decide)
    refine ⟨n, m, ?_⟩
    rcases val (ops ++ List.replicate n .handler ++ List.replicate m .deliver) with h' | h'
    · rw [h'] at e; cases e
    · exact h'.1
  · intro ops' h; rw [returned_stays _ _ _ _ _ _ h]; exact h

/-- Found: a null timer is dereferenced. -/
theorem C49_waitForTimeout_null (ops : List (Op DSig Bool)) : (timerWaitForTimeout none).out (-1) true ops = some .nullDeref := rfl

example : (timerWaitForTimeout (some true)).out (-1) true [.time 5, .sig .timeout false, .sig .timeout false, .deliver] = some (.ok ()) := by decide
example : (timerWaitForTimeout (some true)).out (-1) true [.time 5, .dev false, .deliver, .fire] = none := by decide

/-! ### C51: D-Bus waitForFinished -/
section
variable {ν : Type}

/-- After the wait: `watcher.reply()` (`none`: the call is not finished). (`qcoro/dbus/qcorodbuspendingcall.cpp:41`). -/
def busReply : Cont Unit (Option ν) (Option ν) := fun _ dv => (.ok dv.join, dv)

/-- `QCoroDBusPendingCall::waitForFinished` (`qcoro/dbus/qcorodbuspendingcall.cpp:38-42`): always waits for the watcher. -/
def busCallWait (_ : Option ν) : Call Unit (Option ν) (Option ν) := .wait (ownSignal .finished) busReply
/-- `QCoroDBusPendingReply::waitForFinished` (`qcoro/dbus/qcorodbuspendingreply.h:110-117`). -/
def busReplyWait (c : Option ν) : Call Unit (Option ν) (Option ν) :=
  if c.isSome = false then .wait (ownSignal .finished) busReply else .ret (.ok c) (some c)

/-- Specification: the call waits for `finished` of its own watcher (which cannot be destroyed meanwhile) and returns the reply
that is there when it continues, once. Specification vocabulary, no counterpart in /repo. -/
structure AwaitsReply (out : List (Op DSig (Option ν)) → Option (Res (Option ν))) (c : Option ν) : Prop where
  sound : ∀ ops r, exists? ops = true → out ops = some r → ∃ pre post, ops = pre ++ .deliver :: post ∧ .finished ∈ heard pre ∧ r = .ok (device (some c) pre).join
  complete : ∀ ops, .finished ∈ heard ops → ∃ n m, (out (ops ++ List.replicate n .handler ++ List.replicate m .deliver)).isSome = true
  once : ∀ ops ops' r, out ops = some r → out (ops ++ ops') = some r

theorem awaitsReply (c : Option ν) : AwaitsReply (fun ops => (run (ownSignal .finished) busReply (-1) c ops).out) c := by
  refine ⟨?_, ?_, ?_⟩
  · intro ops r hex hx
    rcases returned _ _ _ _ _ hx with ⟨pre, post, rfl, v, e, ⟨y, hy, hc⟩, _⟩ | ⟨pre, post, rfl, _, e1, _⟩
    · have := (own_ends .finished y).1 (by obtain ⟨c, hc, e⟩ := hc; exact ⟨c, hc, by simp [e]⟩)
      exact ⟨pre, post, rfl, this ▸ hy, e⟩
    · omega
  · intro ops h; exact completes _ _ _ _ _ h (by decide)
  · intro ops ops' r h; show (run _ _ _ _ (ops ++ ops')).out = _; rw [returned_stays _ _ _ _ _ _ h]; exact h

theorem C51_waitForFinished_reply (c : Option ν) :
    (∀ v, c = some v → ∀ ops, (busReplyWait c).out (-1) c ops = some (.ok (some v))) ∧
    (c = none → AwaitsReply ((busReplyWait c).out (-1) c) c) := by
  constructor
  · rintro v rfl ops; rfl
  · rintro rfl; exact awaitsReply none

theorem C51_waitForFinished_call (c : Option ν) : AwaitsReply ((busCallWait c).out (-1) c) c := awaitsReply c

/-- Found: `QCoroDBusPendingCall::waitForFinished` suspends even if the call has finished already (documented: it does not);
it continues when the event loop has run. -/
theorem C51_call_always_suspends (v : ν) : (busCallWait (some v)).out (-1) (some v) [] = none ∧
    (busCallWait (some v)).out (-1) (some v) [.sig .finished false, .deliver] = some (.ok (some v)) := ⟨rfl, rfl⟩

example : (busReplyWait (none : Option Nat)).out (-1) none [.dev (some 4), .sig .finished false, .deliver] = some (.ok (some 4)) := by decide
end

/-! ### C42: QThread waits -/

/-- A `QThread`, as `isRunning()`/`isFinished()` report it. Models Qt (documented behaviour), not code of /repo. -/
inductive ThState | fresh | running | finished
deriving DecidableEq, Repr

/-- `QCoroThread::waitForStarted` (`qcoro/core/qcorothread.cpp:90-100`).  `s1`, `s2`: the thread at the two checks, which differ
if it makes progress in between (it runs concurrently); the subscription follows. -/
def thWaitForStarted (s1 s2 : ThState) : Call Unit ThState Bool :=
  if s1 = .running then .ret (.ok true) (some s1)
  else if s2 = .finished then .ret (.ok false) (some s2)
  else .wait (ownSignal .started) (fun r dv => (.ok r.isSome, dv))

/-- `QCoroThread::waitForFinished` (`:102-112`). -/
def thWaitForFinished (s1 s2 : ThState) : Call Unit ThState Bool :=
  if s1 = .finished then .ret (.ok true) (some s1)
  else if s2 ≠ .running then .ret (.ok false) (some s2)
  else .wait (ownSignal .finished) (fun r dv => (.ok r.isSome, dv))

/-- A thread goes round and round: `start()`; emits `started`; ends (reported by `isFinished()` from then on); emits `finished`.  The
thread after `n` of these steps. Models Qt (documented behaviour), not code of /repo. -/
def thState (n : Nat) : ThState := if n = 0 then .fresh else if n % 4 = 1 ∨ n % 4 = 2 then .running else .finished

/-- What its step number `n` emits. Models Qt (documented behaviour), not code of /repo. -/
def thEmits (n : Nat) : Option DSig := if n % 4 = 1 then some .started else if n % 4 = 3 then some .finished else none

/-- A call to waitForStarted: the thread has made `n1` steps at the first check, `n2` at the second one; then comes the subscription
and `ops` (in which the thread emits what it emits after the subscription). (`qcoro/core/qcorothread.cpp:90-100`). -/
def startedCall (n1 n2 : Nat) (t : Int) (ops : List (Op DSig ThState)) : Option (Res Bool) :=
  (thWaitForStarted (thState n1) (thState n2)).out t (thState n2) ops
/-- A call to waitForFinished, likewise (`qcoro/core/qcorothread.cpp:102-112`). -/
def finishedCall (n1 n2 : Nat) (t : Int) (ops : List (Op DSig ThState)) : Option (Res Bool) :=
  (thWaitForFinished (thState n1) (thState n2)).out t (thState n2) ops

/-- If the thread makes no step between the checks: running → true, finished → false, at once; otherwise it reports whether
`started` comes in time. -/
theorem C42_waitForStarted (n : Nat) (t : Int) :
    (thState n = .running → ∀ ops, startedCall n n t ops = some (.ok true)) ∧
    (thState n = .finished → ∀ ops, startedCall n n t ops = some (.ok false)) ∧
    (thState n = .fresh → Reports (startedCall n n t) t (· = .started) true) := by
  refine ⟨?_, ?_, ?_⟩ <;> intro e
  · intro ops; simp [startedCall, e, thWaitForStarted, Call.out]
  · intro ops; simp [startedCall, e, thWaitForStarted, Call.out]
  · have : startedCall n n t = (thWaitForStarted .fresh .fresh).out t .fresh := by funext ops; simp [startedCall, e]
    rw [this]; exact own_reports _ _ _

/-- Finished → true, not started → false, at once; otherwise it reports whether `finished` comes in time. -/
theorem C42_waitForFinished (n : Nat) (t : Int) :
    (thState n = .finished → ∀ ops, finishedCall n n t ops = some (.ok true)) ∧
    (thState n = .fresh → ∀ ops, finishedCall n n t ops = some (.ok false)) ∧
    (thState n = .running → Reports (finishedCall n n t) t (· = .finished) true) := by
  refine ⟨?_, ?_, ?_⟩ <;> intro e
  · intro ops; simp [finishedCall, e, thWaitForFinished, Call.out]
  · intro ops; simp [finishedCall, e, thWaitForFinished, Call.out]
  · have : finishedCall n n t = (thWaitForFinished .running .running).out t .running := by funext ops; simp [finishedCall, e]
    rw [this]; exact own_reports _ _ _

/-- In general, the thread having made `n1` steps at the first and `n2` at the second check: running at the first → true; otherwise finished
at the second → false; otherwise it reports whether `started` is emitted in time after the subscription. -/
theorem C42_started_exact (n1 n2 : Nat) (t : Int) :
    (thState n1 = .running → ∀ ops, startedCall n1 n2 t ops = some (.ok true)) ∧
    (thState n1 ≠ .running → thState n2 = .finished → ∀ ops, startedCall n1 n2 t ops = some (.ok false)) ∧
    (thState n1 ≠ .running → thState n2 ≠ .finished → Reports (startedCall n1 n2 t) t (· = .started) true) := by
  refine ⟨?_, ?_, ?_⟩
  · intro e ops; simp [startedCall, e, thWaitForStarted, Call.out]
  · intro e e2 ops; simp [startedCall, e, e2, thWaitForStarted, Call.out]
  · intro e e2
    have : startedCall n1 n2 t = (Call.wait (ownSignal .started) (fun r dv => (.ok r.isSome, dv))).out t (thState n2) := by
      funext ops; simp [startedCall, e, e2, thWaitForStarted]
    rw [this]; exact own_reports _ _ _

/-- … waitForFinished: finished at the first check → true; otherwise not running at the second → false; otherwise it reports whether
`finished` is emitted in time after the subscription. -/
theorem C42_finished_exact (n1 n2 : Nat) (t : Int) :
    (thState n1 = .finished → ∀ ops, finishedCall n1 n2 t ops = some (.ok true)) ∧
    (thState n1 ≠ .finished → thState n2 ≠ .running → ∀ ops, finishedCall n1 n2 t ops = some (.ok false)) ∧
    (thState n1 ≠ .finished → thState n2 = .running → Reports (finishedCall n1 n2 t) t (· = .finished) true) := by
  refine ⟨?_, ?_, ?_⟩
  · intro e ops; simp [finishedCall, e, thWaitForFinished, Call.out]
  · intro e e2 ops; simp [finishedCall, e, e2, thWaitForFinished, Call.out]
  · intro e e2
    have : finishedCall n1 n2 t = (Call.wait (ownSignal .finished) (fun r dv => (.ok r.isSome, dv))).out t (thState n2) := by
      funext ops; simp [finishedCall, e, e2, thWaitForFinished]
    rw [this]; exact own_reports _ _ _

/-- … and then no emission is missed if the thread makes no step between check and subscription either: a thread that has not
started emits `started` in a later step, and one that is running emits `finished` in a later step. -/
theorem C42_nothing_missed (n : Nat) : (thState n = .fresh → ∀ k < n, thEmits k ≠ some .started) ∧
    (thState n = .running → ∃ k, n ≤ k ∧ thEmits k = some .finished ∧ ∀ j, n ≤ j → j ≤ k → thState j = .running ∨ j = k) := by
  constructor
  · intro h k hk
    unfold thState at h
    split at h
    · omega
    · split at h <;> cases h
  · intro h
    unfold thState at h
    split at h
    · cases h
    · split at h
      · rename_i h1
        refine ⟨n / 4 * 4 + 3, by omega, by simp [thEmits], ?_⟩
        intro j h2 h3
        by_cases hj : j = n / 4 * 4 + 3
        · exact .inr hj
        · left; unfold thState; rw [if_neg (by omega), if_pos (by omega)]
      · cases h

/-- Found (lost wake-up): a thread that starts and emits `started` (its steps 0 and 1) between the second check and the
subscription: without timeout the call never returns, although the thread was started, unless it is started again later. -/
theorem C42_started_lost (t : Int) (ht : t < 0) (ops : List (Op DSig ThState)) (hno : .started ∉ heard ops) :
    startedCall 0 0 t ops = none ∧ thEmits 1 = some .started ∧ thState 2 = .running :=
  ⟨((C42_waitForStarted 0 t).2.2 rfl).pending ops (fun x hx e => hno (e ▸ hx)) (.inl ht), rfl, rfl⟩

/-- Found: a thread that finishes (steps 2 and 3) between the check and the subscription of waitForFinished: the same. -/
theorem C42_finished_lost (t : Int) (ht : t < 0) (ops : List (Op DSig ThState)) (hno : .finished ∉ heard ops) :
    finishedCall 2 2 t ops = none ∧ thEmits 3 = some .finished ∧ thState 4 = .finished :=
  ⟨((C42_waitForFinished 2 t).2.2 rfl).pending ops (fun x hx e => hno (e ▸ hx)) (.inl ht), rfl, rfl⟩

/-- Found (wrong answer): the thread starts and ends between the two checks: waitForStarted says it did not start; and
waitForFinished says of a thread that ends between its checks that it did not finish. -/
theorem C42_wrong_answer (t : Int) (ops : List (Op DSig ThState)) :
    startedCall 0 4 t ops = some (.ok false) ∧ finishedCall 2 4 t ops = some (.ok false) := ⟨rfl, rfl⟩

example : startedCall 0 0 50 [.time 10, .dev .running, .sig .started true, .deliver] = some (.ok true) := by decide
example : finishedCall 2 2 (-1) [.dev .finished, .sig .finished true, .deliver] = some (.ok true) := by decide

/-! ### C52: QWebSocket -/

/-- `WebSocketStateWatcher` (`qcoro/websockets/qcorowebsocket.cpp:26-59`), desired state connected.  `sync`: what the socket emits
inside `mWebSocket->open()`, before the wait subscribes to the watcher: a reaction then drops both connections and reaches nobody. -/
def openHelper (sync : List DSig) : Helper DSig Bool :=
  let conns : List (Conn DSig Bool) :=
    [{ react := fun x => match x with | .tcpState .connected => some true | _ => none, disc := [0, 1] },
     { react := fun x => match x with | .errorOccurred => some false | _ => none, disc := [0, 1] }]
  { conns := if sync.any (fun x => conns.any fun c => (c.react x).isSome) then [] else conns }

/-- `QCoroWebSocket::open` (`:148-170`, both overloads). -/
def wsOpen (d : Option TcpState) (sync : List DSig) : Call Bool TcpState Bool :=
  match d with
  | none => .ret .nullDeref none
  | some s =>
    if s = .connected then .ret (.ok true) (some s)
    else .wait (openHelper sync) (fun r dv => (.ok (r.getD false), dv))

/-- `WebSocketSignalWatcher` on `pong` (`:88-117`): a pong, or leaving the connected state. -/
def pingHelper : Helper DSig (Option Int) :=
  { conns := [{ react := fun x => match x with | .pong ms _ => some (some ms) | _ => none },
              { react := fun x => match x with | .tcpState .connected => none | .tcpState _ => some none | _ => none }] }

/-- `QCoroWebSocket::ping` (`:172-186`). -/
def wsPing (d : Option TcpState) : Call (Option Int) TcpState (Option Int) :=
  match d with
  | none => .ret .nullDeref none
  | some s =>
    if s ≠ .connected then .ret (.ok none) (some s)
    else .wait pingHelper (fun r dv => (.ok r.join, dv))

/-- The verdict of the signals on `open`: the first of "connected" (true) and "error" (false).
Specification vocabulary, no counterpart in /repo. -/
def openVerdict : List DSig → Option Bool
  | [] => none
  | .tcpState .connected :: _ => some true
  | .errorOccurred :: _ => some false
  | _ :: l => openVerdict l

theorem openVerdict_eq (l : List DSig) : l.findSome? (openHelper []).hit = openVerdict l := by
  induction l with
  | nil => rfl
  | cons x l ih =>
    rw [List.findSome?_cons]
    cases x with
    | errorOccurred => rfl
    | tcpState s => cases s <;> first | rfl | (rw [show (openHelper []).hit (.tcpState _) = none from rfl]; exact ih)
    | _ => exact ih

/-- Specification of a wait for the first decisive signal: `verdict` decides what the signals mean.
Specification vocabulary, no counterpart in /repo. -/
structure Decides (out : List (Op DSig δ) → Option (Res β)) (t : Int) (verdict : List DSig → Option β) (timedOut : β) : Prop where
  /-- a result is the verdict on the signals of the socket so far, or the timeout's -/
  sound : ∀ ops r, noCross ops = true → out ops = some r → (∃ pre post b, ops = pre ++ post ∧ verdict (heard pre) = some b ∧ r = .ok b) ∨ (r = .ok timedOut ∧ 0 ≤ t ∧ t ≤ elapsed ops)
  /-- a verdict is reported when the event loop has run -/
  complete : ∀ ops b, verdict (heard ops) = some b → ∃ n m, (out (ops ++ List.replicate n .handler ++ List.replicate m .deliver)).isSome = true
  /-- the timeout ends the wait -/
  timeout : ∀ ops, out ops = none → 0 ≤ t → t ≤ elapsed ops → out (ops ++ [.fire]) = some (.ok timedOut)
  /-- nothing else does -/
  pending : ∀ ops, verdict (heard ops) = none → t < 0 ∨ (elapsed ops : Int) < t → out ops = none
  /-- once -/
  once : ∀ ops ops' r, out ops = some r → out (ops ++ ops') = some r

theorem decides_of (h : Helper DSig ρ) (k : Cont ρ δ β) (f : ρ → β) (z : β) (hk : ∀ r dv, (k (some r) dv).1 = .ok (f r)) (hz : ∀ dv, (k none dv).1 = .ok z)
    (hown : h.own = false) (hdir : h.direct = true) (verdict : List DSig → Option β) (hv : ∀ l, verdict l = (l.findSome? h.hit).map f) (t : Int) (d : δ) :
    Decides ((Call.wait h k).out t d) t verdict z := by
  refine ⟨?_, ?_, ?_, ?_, ?_⟩
  · intro ops r hn hr
    rcases returned h k t d ops hr with ⟨pre, post, rfl, v, e, _, e2⟩ | ⟨pre, post, rfl, e, h1, h2, _⟩
    · left
      have hn' : noCross pre = true := by rw [noCross_append] at hn; simp at hn; exact hn.1
      exact ⟨pre, _, f v, rfl, by rw [hv, e2 hdir hn']; rfl, by rw [e, hk]⟩
    · right; refine ⟨by rw [e, hz], h1, ?_⟩; rw [elapsed_append]; omega
  · intro ops b hb
    rw [hv] at hb
    obtain ⟨v, e, -⟩ := Option.map_eq_some_iff.1 hb
    obtain ⟨y, hy, e⟩ := List.exists_of_findSome?_eq_some e
    exact completes h k t d ops hy (by simp [e])
  · intro ops h0 h1 h2
    have := (times_out h k t d ops h0 h1 h2 (by simp [hown])).1
    exact this.trans (by rw [hz])
  · intro ops hn ht
    refine pending h k t d ops ?_ ht
    intro y hy c hc
    rw [hv] at hn
    have hn : (heard ops).findSome? h.hit = none := by simpa using hn
    rw [List.findSome?_eq_none_iff] at hn
    have := hn y hy
    unfold Helper.hit at this
    rw [List.findSome?_eq_none_iff] at this
    exact this c hc
  · intro ops ops' r h'
    show (run h k t d (ops ++ ops')).out = some r
    rw [returned_stays h k t d ops ops' h']; exact h'

/-- open(): true at once if connected; otherwise true if "connected" comes first, false if an error comes first or on
timeout. -/
theorem C52_open (s : TcpState) (t : Int) :
    (s = .connected → ∀ sync ops, (wsOpen (some s) sync).out t s ops = some (.ok true)) ∧
    (s ≠ .connected → Decides ((wsOpen (some s) []).out t s) t openVerdict false) := by
  constructor
  · rintro rfl sync ops; rfl
  · intro hs
    unfold wsOpen
    simp only [if_neg hs]
    exact decides_of _ _ id false (fun _ _ => rfl) (fun _ => rfl) rfl rfl _ (fun l => by rw [openVerdict_eq]; simp) t s

/-- Signals emitted inside `QWebSocket::open` that decide nothing change nothing. -/
theorem C52_open_sync_ok (s : TcpState) (sync : List DSig) (h : openVerdict sync = none) : wsOpen (some s) sync = wsOpen (some s) [] := by
  have : openHelper sync = openHelper [] := by
    unfold openHelper
    simp only [Helper.mk.injEq, and_true]
    rw [if_neg]
    · rfl
    · rw [Bool.not_eq_true]
      simp only [List.any_eq_false]
      intro x hx
      rw [← openVerdict_eq, List.findSome?_eq_none_iff] at h
      have := h x hx
      simp only [Helper.hit, openHelper, List.any_nil, Bool.false_eq_true, if_false, List.findSome?_cons, List.findSome?_nil] at this
      simp only [List.any_cons, List.any_nil, Bool.or_false, Bool.not_eq_true, Bool.or_eq_false_iff, Option.isSome_eq_false_iff, Option.isNone_iff_eq_none]
      cases x <;> simp_all
      rename_i st; cases st <;> simp_all
  unfold wsOpen; rw [this]

/-- Found: if the socket reports the error (or the connection) synchronously inside `open()`, e.g. for an invalid URL, the wait
has not subscribed yet; without timeout it never ends, whatever happens. -/
theorem C52_open_sync_error_hangs (s : TcpState) (hs : s ≠ .connected) (sync : List DSig) (h : .errorOccurred ∈ sync) (t : Int) (ht : t < 0)
    (ops : List (Op DSig TcpState)) : (wsOpen (some s) sync).out t s ops = none := by
  have hc : openHelper sync = { conns := [] } := by
    unfold openHelper
    simp only [Helper.mk.injEq, and_true]
    rw [if_pos]
    simp only [List.any_eq_true]
    exact ⟨_, h, ⟨_, by right; left, rfl⟩⟩
  unfold wsOpen
  simp only [if_neg hs, hc]
  exact pending _ _ _ _ _ (by simp) (.inl ht)

/-- … and in general, if what the socket emits inside `open()` decides (an error, or the connection), the call is deaf from then on:
it returns only on timeout, and then false, even if the socket is connected. -/
theorem C52_open_sync_deaf (s : TcpState) (hs : s ≠ .connected) (sync : List DSig) (h : openVerdict sync ≠ none) (t : Int) (ops : List (Op DSig TcpState)) :
    (∀ r, (wsOpen (some s) sync).out t s ops = some r → r = .ok false ∧ 0 ≤ t ∧ t ≤ elapsed ops) ∧
    ((wsOpen (some s) sync).out t s ops = none → 0 ≤ t → t ≤ elapsed ops → (wsOpen (some s) sync).out t s (ops ++ [.fire]) = some (.ok false)) := by
  have hc : openHelper sync = { conns := [] } := by
    unfold openHelper
    simp only [Helper.mk.injEq, and_true]
    rw [if_pos]
    rw [← openVerdict_eq] at h
    obtain ⟨b, hb⟩ := Option.ne_none_iff_exists'.1 h
    obtain ⟨x, hx, hy⟩ := List.exists_of_findSome?_eq_some hb
    rw [List.any_eq_true]
    refine ⟨x, hx, ?_⟩
    cases x with
    | errorOccurred => rfl
    | tcpState st => cases st <;> first | rfl | cases hy
    | _ => cases hy
  unfold wsOpen
  simp only [if_neg hs, hc]
  constructor
  · intro r hr
    rcases returned _ _ t s ops hr with ⟨pre, post, rfl, v, _, ⟨y, hy, c, hc, _⟩, _⟩ | ⟨pre, post, rfl, e, h1, h2, _⟩
    · cases hc
    · refine ⟨e, h1, ?_⟩; rw [elapsed_append]; omega
  · intro h0 h1 h2
    exact (times_out _ _ t s ops h0 h1 h2 (by simp)).1

/-- The verdict on a ping: the first pong's time, or none if the socket left the connected state before.
Specification vocabulary, no counterpart in /repo. -/
def pingVerdict : List DSig → Option (Option Int)
  | [] => none
  | .pong ms _ :: _ => some (some ms)
  | .tcpState .connected :: l => pingVerdict l
  | .tcpState _ :: _ => some none
  | _ :: l => pingVerdict l

theorem pingVerdict_eq (l : List DSig) : l.findSome? pingHelper.hit = pingVerdict l := by
  induction l with
  | nil => rfl
  | cons x l ih =>
    rw [List.findSome?_cons]
    cases x with
    | pong ms p => rfl
    | tcpState s => cases s <;> first | rfl | (rw [show pingHelper.hit (.tcpState .connected) = none from rfl]; exact ih)
    | _ => exact ih

/-- ping(): nullopt at once if not connected; otherwise the elapsed time of the first pong, nullopt if the connection is lost
before or on timeout. -/
theorem C52_ping (s : TcpState) (t : Int) :
    (s ≠ .connected → ∀ ops, (wsPing (some s)).out t s ops = some (.ok none)) ∧
    (s = .connected → Decides ((wsPing (some s)).out t s) t pingVerdict none) := by
  constructor
  · intro hs ops; unfold wsPing; simp only [if_pos hs]; rfl
  · rintro rfl
    exact decides_of pingHelper _ id none (fun _ _ => rfl) (fun _ => rfl) rfl rfl _ (fun l => by rw [pingVerdict_eq]; simp) t _

/-- Found: any pong ends the ping, also the late answer to an earlier ping with another payload. -/
theorem C52_ping_any_pong (ms : Int) (payload : Nat) :
    (wsPing (some .connected)).out 1000 .connected [.sig (.pong ms payload) false, .deliver] = some (.ok (some ms)) := rfl

/-- A null socket is dereferenced. -/
theorem C52_null (t : Int) (s : TcpState) (sync : List DSig) (ops : List (Op DSig TcpState)) :
    (wsOpen none sync).out t s ops = some .nullDeref ∧ (wsPing none).out t s ops = some .nullDeref := ⟨rfl, rfl⟩

example : (wsOpen (some .unconnected) [.tcpState .connecting]).out 100 .unconnected [.time 20, .sig (.tcpState .connected) false, .deliver] = some (.ok true) := by decide
example : (wsOpen (some .unconnected) []).out 100 .unconnected [.sig .errorOccurred false, .sig (.tcpState .connected) false, .deliver] = some (.ok false) := by decide
example : (wsOpen (some .unconnected) []).out 100 .unconnected [.time 100, .fire] = some (.ok false) := by decide
example : (wsPing (some .connected)).out (-1) .connected [.sig (.tcpState .closing) false, .sig (.pong 3 1) false, .deliver] = some (.ok none) := by decide

end QCoro.Wait

/-! ### C50: sleepFor, sleepUntil -/
namespace QCoro.Sleep
open QCoro.Aw

/-- `std::chrono::duration_cast<milliseconds>` of `count` ticks of `num/den` seconds: rounds towards zero.
Simplification: unbounded integers (no overflow); floating-point representations round the same way.
Called at `qcoro/core/qcorotimer.h:62`. -/
def castMs (count : Int) (num den : Nat) : Int := (count * num * 1000).tdiv den

/-- Environment of a sleeping coroutine.
Models the environment (application, event loop, operating system) rather than code of /repo. -/
inductive Env | time (ms : Nat) | loop   -- time passes; the event loop looks at its timers
deriving DecidableEq, Repr

/-- Milliseconds that passed. Specification vocabulary, no counterpart in /repo. -/
def passed : List Env → Nat
  | [] => 0
  | .time n :: l => n + passed l
  | .loop :: l => passed l

/-- A started single-shot `QTimer` with `left` milliseconds to go: it emits `timeout` once, when the event loop finds it due, and
is inactive then.  Simplification: Qt's coarse timers may be up to 5 % early; modelled as precise.
Models Qt (documented behaviour), not code of /repo; started at `qcoro/core/qcorotimer.h:60-62`. -/
def qtimer : Nat → List Env → List (Op TimerSig Bool)
  | _, [] => []
  | left, .time n :: l => .time n :: qtimer (left - n) l
  | left, .loop :: l => if left = 0 then [.dev false, .sig .timeout] else qtimer left l

/-- `QCoro::sleepFor` (`qcoro/core/qcorotimer.h:59-64`) with the duration in milliseconds after the cast: start a single-shot
timer and `co_await` it.  Qt does not start a timer with a negative interval. -/
def sleepMs (ms : Int) (env : List Env) : State Bool Unit :=
  Aw.run timerOp (some (decide (0 ≤ ms))) [] (if 0 ≤ ms then qtimer ms.toNat env else [])

/-- `QCoro::sleepFor` (`qcoro/core/qcorotimer.h:59-64`), with the cast. -/
def sleepFor (count : Int) (num den : Nat) (env : List Env) : State Bool Unit := sleepMs (castMs count num den) env

/-- `QCoro::sleepUntil` (`:68-71`): `when` and `steadyNow` are counts since their clock's epoch, in the same unit. -/
def sleepUntil (time : Int) (steadyNow : Int) (num den : Nat) (env : List Env) : State Bool Unit :=
  sleepFor (time - steadyNow) num den env

theorem qtimer_fires (env : List Env) : ∀ left, Op.sig TimerSig.timeout ∈ qtimer left env ↔ ∃ pre post, env = pre ++ .loop :: post ∧ left ≤ passed pre := by
  induction env with
  | nil => intro left; simp [qtimer]
  | cons e l ih =>
    intro left
    cases e with
    | time n =>
      simp only [qtimer, List.mem_cons, reduceCtorEq, false_or, ih]
      constructor
      · rintro ⟨pre, post, rfl, h⟩; exact ⟨.time n :: pre, post, rfl, by simp [passed]; omega⟩
      · rintro ⟨pre, post, e, h⟩
        cases pre with
        | nil => cases e
        | cons x pre => simp at e; obtain ⟨rfl, rfl⟩ := e; exact ⟨pre, post, rfl, by simp [passed] at h; omega⟩
    | loop =>
      unfold qtimer
      by_cases h0 : left = 0
      · simp only [if_pos h0]
        constructor
        · intro _; exact ⟨[], l, rfl, by omega⟩
        · intro _; simp
      · simp only [if_neg h0, ih]
        constructor
        · rintro ⟨pre, post, rfl, h⟩; exact ⟨.loop :: pre, post, rfl, by simpa [passed] using h⟩
        · rintro ⟨pre, post, e, h⟩
          cases pre with
          | nil => simp [passed] at h; omega
          | cons x pre => simp at e; obtain ⟨rfl, rfl⟩ := e; exact ⟨pre, post, rfl, by simpa [passed] using h⟩

theorem qtimer_no_gone (env : List Env) : ∀ left, Op.gone ∉ qtimer left env := by
  induction env with
  | nil => intro left; simp [qtimer]
  | cons e l ih => intro left; cases e <;> simp [qtimer, ih]; split <;> simp [ih]

/-- Exactly when a sleeping coroutine continues: once, when the event loop looks after the given number of milliseconds. -/
theorem sleepMs_iff (ms : Int) (env : List Env) :
    (sleepMs ms env).out = [.got ()] ↔ ms < 0 ∨ ∃ pre post, env = pre ++ .loop :: post ∧ ms ≤ passed pre := by
  unfold sleepMs
  by_cases h : 0 ≤ ms
  · rw [if_pos h, decide_eq_true h, C49_result]
    constructor
    · rintro ⟨pre, post, e, hg⟩
      right
      obtain ⟨p, q, e, hp⟩ := (qtimer_fires env ms.toNat).1 (by rw [e]; simp)
      exact ⟨p, q, e, by omega⟩
    · rintro (h' | ⟨p, q, e, hp⟩)
      · omega
      · have hm := (qtimer_fires env ms.toNat).2 ⟨p, q, e, by omega⟩
        obtain ⟨pre, post, e2⟩ := List.append_of_mem hm
        refine ⟨pre, post, e2, ?_⟩
        intro hg; exact qtimer_no_gone env ms.toNat (by rw [e2]; simp [hg])
  · rw [if_neg h, decide_eq_false h]
    exact ⟨fun _ => .inl (by omega), fun _ => C49_immediate _ (by simp) _ _⟩

/-- Requested: `count` ticks of `num/den` seconds, i.e. `count·num·1000/den` milliseconds.  The coroutine has slept the
requested time when it continues. Specification vocabulary, no counterpart in /repo. -/
def SleptEnough (count : Int) (num den : Nat) (slept : Nat) : Prop := count * num * 1000 ≤ (slept : Int) * den

theorem castMs_le (count : Int) (num den : Nat) (hd : 0 < den) (hc : 0 ≤ count) :
    castMs count num den * den ≤ count * num * 1000 ∧ count * num * 1000 < (castMs count num den + 1) * den := by
  have hn : 0 ≤ count * num * 1000 := by
    have : 0 ≤ count * num := Int.mul_nonneg hc (by omega)
    omega
  unfold castMs
  rw [Int.tdiv_eq_ediv_of_nonneg hn]
  constructor
  · exact Int.ediv_mul_le _ (by omega)
  · exact Int.lt_ediv_add_one_mul_self _ (by omega)

/-- sleepFor, for every duration type: at most one millisecond less than requested is slept (rounding towards zero), and the
sleep ends at the first look of the event loop after the rounded time. -/
theorem C50_sleepFor (count : Int) (num den : Nat) (hd : 0 < den) (hc : 0 ≤ count) (env : List Env) :
    ((sleepFor count num den env).out = [.got ()] → ∃ pre post, env = pre ++ .loop :: post ∧ count * num * 1000 < ((passed pre : Int) + 1) * den) ∧
    (∀ pre post, env = pre ++ .loop :: post → SleptEnough count num den (passed pre) → (sleepFor count num den env).out = [.got ()]) := by
  obtain ⟨h1, h2⟩ := castMs_le count num den hd hc
  have hpos : 0 ≤ castMs count num den := by
    unfold castMs
    apply Int.tdiv_nonneg
    · have : 0 ≤ count * num := Int.mul_nonneg hc (by omega)
      omega
    · omega
  constructor
  · intro h
    rcases (sleepMs_iff _ env).1 h with h | ⟨pre, post, e, hp⟩
    · omega
    · refine ⟨pre, post, e, Int.lt_of_lt_of_le h2 ?_⟩
      exact Int.mul_le_mul_of_nonneg_right (by omega) (by omega)
  · intro pre post e hs
    refine (sleepMs_iff _ env).2 (.inr ⟨pre, post, e, ?_⟩)
    have : castMs count num den * den ≤ (passed pre : Int) * den := Int.le_trans h1 hs
    exact Int.le_of_mul_le_mul_right this (by omega)

/-- Whole milliseconds (`num·1000` a multiple of `den`: seconds, minutes, milliseconds…): never woken early. -/
theorem C50_sleepFor_whole_ms (count : Int) (num den k : Nat) (hd : 0 < den) (hk : num * 1000 = k * den) (hc : 0 ≤ count) (env : List Env)
    (h : (sleepFor count num den env).out = [.got ()]) : ∃ pre post, env = pre ++ .loop :: post ∧ SleptEnough count num den (passed pre) := by
  have hmul : count * (num : Int) * 1000 = (count * k) * den := by
    have e : (num : Int) * 1000 = k * den := by omega
    rw [Int.mul_assoc, e, Int.mul_assoc]
  have hcast : castMs count num den = count * k := by
    unfold castMs
    rw [hmul]; exact Int.mul_tdiv_cancel _ (by omega)
  have hpos : 0 ≤ count * (k : Int) := Int.mul_nonneg hc (by omega)
  rcases (sleepMs_iff _ env).1 h with h | ⟨pre, post, e, hp⟩
  · rw [hcast] at h; omega
  · refine ⟨pre, post, e, ?_⟩
    unfold SleptEnough
    rw [hcast] at hp
    rw [hmul]
    exact Int.mul_le_mul_of_nonneg_right hp (by omega)

/-- Found: 999 µs: continues after no time at all. -/
theorem C50_truncated : (sleepFor 999 1 1000000 [.loop]).out = [.got ()] ∧ ¬ SleptEnough 999 1 1000000 (passed []) := by
  constructor
  · decide
  · simp [SleptEnough, passed]

/-- Exactly once, whatever the environment. -/
theorem C50_once (count : Int) (num den : Nat) (env : List Env) :
    (sleepFor count num den env).out = [] ∨ (sleepFor count num den env).out = [.got ()] := C49_once _ _ _

/-- sleepUntil, on the steady clock reading `now` at the call, with time points counted in units of `num/den` seconds: it continues at a look of
the event loop less than a millisecond before `time` at the earliest, and at the latest at the first look at or after `time`. -/
theorem C50_sleepUntil_steady (time now : Int) (num den : Nat) (hd : 0 < den) (hc : now ≤ time) (env : List Env) :
    ((sleepUntil time now num den env).out = [.got ()] →
      ∃ pre post, env = pre ++ .loop :: post ∧ time * num * 1000 < now * num * 1000 + ((passed pre : Int) + 1) * den) ∧
    (∀ pre post, env = pre ++ .loop :: post → time * num * 1000 ≤ now * num * 1000 + (passed pre : Int) * den →
      (sleepUntil time now num den env).out = [.got ()]) := by
  have e : (time - now) * (num : Int) * 1000 = time * num * 1000 - now * num * 1000 := by
    rw [Int.sub_mul, Int.sub_mul]
  obtain ⟨h1, h2⟩ := C50_sleepFor (time - now) num den hd (by omega) env
  constructor
  · intro h
    obtain ⟨pre, post, h3, h4⟩ := h1 h
    exact ⟨pre, post, h3, by omega⟩
  · intro pre post h3 h4
    exact h2 pre post h3 (by unfold SleptEnough; omega)

/-- A time point at least a millisecond in the past does not suspend. -/
theorem C50_sleepUntil_past (time now : Int) (num den : Nat) (hd : 0 < den) (h : time * num * 1000 + den ≤ now * num * 1000) (env : List Env) :
    (sleepUntil time now num den env).out = [.got ()] := by
  refine (sleepMs_iff _ env).2 (.inl ?_)
  have e : (time - now) * (num : Int) * 1000 = time * num * 1000 - now * num * 1000 := by
    rw [Int.sub_mul, Int.sub_mul]
  unfold castMs
  rw [e]
  obtain ⟨x, hx⟩ : ∃ x, x = now * num * 1000 - time * num * 1000 := ⟨_, rfl⟩
  rw [show time * (num : Int) * 1000 - now * num * 1000 = -x by omega, Int.neg_tdiv]
  have : 1 ≤ x.tdiv den := by
    rw [Int.tdiv_eq_ediv_of_nonneg (by omega)]
    exact (Int.le_ediv_iff_mul_le (by omega)).2 (by omega)
  omega

/-- A time point in the past by less than that costs one look of the event loop. -/
theorem C50_sleepUntil_just_past (time now : Int) (num den : Nat) (hd : 0 < den) (hc : time ≤ now) (h : now * num * 1000 < time * num * 1000 + den)
    (env : List Env) : (sleepUntil time now num den env).out = [.got ()] ↔ .loop ∈ env := by
  have e : (time - now) * (num : Int) * 1000 = time * num * 1000 - now * num * 1000 := by
    rw [Int.sub_mul, Int.sub_mul]
  have e0 : castMs (time - now) num den = 0 := by
    unfold castMs
    rw [e]
    obtain ⟨x, hx⟩ : ∃ x, x = now * num * 1000 - time * num * 1000 := ⟨_, rfl⟩
    have hx0 : 0 ≤ x := by
      have : 0 ≤ (now - time) * (num : Int) := Int.mul_nonneg (by omega) (by omega)
      rw [Int.sub_mul] at this
      omega
    rw [show time * (num : Int) * 1000 - now * num * 1000 = -x by omega, Int.neg_tdiv, Int.tdiv_eq_ediv_of_nonneg hx0, Int.ediv_eq_zero_of_lt hx0 (by omega)]
    rfl
  unfold sleepUntil sleepFor
  rw [sleepMs_iff, e0]
  constructor
  · rintro (h | ⟨pre, post, rfl, _⟩)
    · omega
    · simp
  · intro hm
    obtain ⟨pre, post, rfl⟩ := List.append_of_mem hm
    exact .inr ⟨pre, post, rfl, by omega⟩

/-- Found: for another clock, whose reading is `now` when the steady clock reads `steady`, sleepUntil sleeps for the time left plus
the difference of the readings, because epochs are mixed: in milliseconds, exactly … -/
theorem C50_sleepUntil_epochs (time now steady : Int) (env : List Env) :
    (sleepUntil time steady 1 1000 env).out = [.got ()] ↔
      (time - now) + (now - steady) < 0 ∨ ∃ pre post, env = pre ++ .loop :: post ∧ (time - now) + (now - steady) ≤ passed pre := by
  have : castMs (time - steady) 1 1000 = (time - now) + (now - steady) := by
    unfold castMs; rw [show ((time - steady) * ((1 : Nat) : Int) * 1000) = (time - steady) * ((1000 : Nat) : Int) by omega, Int.mul_tdiv_cancel _ (by omega)]; omega
  unfold sleepUntil sleepFor
  rw [sleepMs_iff, this]

/-- … so a sleep until 10 ms from now by a clock far behind the steady clock ends at once, and by the system clock (ahead by decades)
it still sleeps after a year. -/
theorem C50_sleepUntil_wrong : (sleepUntil 10 1000000 1 1000 [.loop]).out = [.got ()] ∧
    (sleepUntil (1700000000000 + 10) 3600000 1 1000 [.time 31536000000, .loop]).out = [] := by decide

example : (sleepFor 3 1 1000 [.time 2, .loop, .time 1, .loop, .loop]).out = [.got ()] := by decide
example : (sleepFor 3 1 1000 [.time 2, .loop, .loop]).out = [] := by decide
example : (sleepUntil 1005 1000 1 1000 [.time 4, .loop]).out = [] ∧ (sleepUntil 1005 1000 1 1000 [.time 4, .loop, .time 1, .loop]).out = [.got ()] := by decide
example : (sleepUntil 990 1000 1 1000 []).out = [.got ()] ∧ (sleepUntil 999900 1000000 1 1000000 []).out = [] := by decide

end QCoro.Sleep
