import Verif.Wait.Device
/-
Properties C35, C36, C38, C39, C41, C44, C45, C46 (waitForFinished), C47: the `waitFor…` and `read…` functions.
-/
set_option linter.unusedSimpArgs false
namespace QCoro.Wait
variable {ρ δ β : Type}

/-! ### Specification -/

/-- Specification of a call that waits for one of the signals `ends`, at most `t` milliseconds (for ever if `t < 0`), and
reports whether one came.  `out ops` is what the call has returned after the events `ops`.  `own`: it subscribes to the
device without a helper object. -/
structure Reports (out : List (Op DSig δ) → Option (Res Bool)) (t : Int) (ends : DSig → Prop) (own : Bool) : Prop where
  /-- it returns a truth value (and never dereferences a null device) -/
  result : ∀ ops r, out ops = some r → r = .ok true ∨ r = .ok false
  /-- true only if such a signal was emitted since the call -/
  sound : ∀ ops, out ops = some (.ok true) → ∃ x ∈ heard ops, ends x
  /-- false only if there is a timeout and it has elapsed -/
  notEarly : ∀ ops, out ops = some (.ok false) → 0 ≤ t ∧ t ≤ elapsed ops
  /-- it returns once -/
  once : ∀ ops ops' r, out ops = some r → out (ops ++ ops') = some r
  /-- emitted in time: it returns true as soon as the event loop delivers what is posted -/
  complete : ∀ ops x, x ∈ heard ops → ends x → t < 0 ∨ (elapsed ops : Int) < t →
    ∃ n m, out (ops ++ List.replicate n .handler ++ List.replicate m .deliver) = some (.ok true)
  /-- emitted at all: it returns -/
  returns : ∀ ops x, x ∈ heard ops → ends x → ∃ n m, (out (ops ++ List.replicate n .handler ++ List.replicate m .deliver)).isSome = true
  /-- timeout elapsed: it returns false when the event loop notices -/
  timeout : ∀ ops, out ops = none → 0 ≤ t → t ≤ elapsed ops → (own = true → exists? ops = true) → out (ops ++ [.fire]) = some (.ok false)
  /-- otherwise it keeps waiting -/
  pending : ∀ ops, (∀ x ∈ heard ops, ¬ ends x) → t < 0 ∨ (elapsed ops : Int) < t → out ops = none
  /-- without a helper: the device is destroyed before, it never returns, timeout or not -/
  destroyed : own = true → ∀ ops, (∀ x ∈ heard ops, ¬ ends x) → exists? ops = false → out ops = none → ∀ ops', out (ops ++ ops') = none

theorem heard_replicate (op : Op DSig δ) (h : heard [op] = []) (ops : List (Op DSig δ)) (m : Nat) : heard (ops ++ List.replicate m op) = heard ops := by
  induction m with
  | zero => simp
  | succ m ih => rw [List.replicate_succ', ← List.append_assoc, heard_append, ih, h]; simp

theorem elapsed_replicate (op : Op DSig δ) (h : elapsed [op] = 0) (ops : List (Op DSig δ)) (m : Nat) : elapsed (ops ++ List.replicate m op) = elapsed ops := by
  induction m with
  | zero => simp
  | succ m ih => rw [List.replicate_succ', ← List.append_assoc, elapsed_append, ih, h]; simp

theorem noCross_replicate (op : Op DSig δ) (h : noCross [op] = true) (ops : List (Op DSig δ)) (m : Nat) : noCross (ops ++ List.replicate m op) = noCross ops := by
  induction m with
  | zero => simp
  | succ m ih => rw [List.replicate_succ', ← List.append_assoc, noCross_append, ih, h]; simp

theorem hit_ne_none {h : Helper DSig ρ} {y : DSig} : h.hit y ≠ none ↔ ∃ c ∈ h.conns, c.react y ≠ none := by
  unfold Helper.hit
  rw [Ne, List.findSome?_eq_none_iff]
  simp only [Classical.not_forall]
  constructor
  · rintro ⟨c, hc, e⟩; exact ⟨c, hc, e⟩
  · rintro ⟨c, hc, e⟩; exact ⟨c, hc, e⟩

/-- The functions that report `result.has_value()`. -/
theorem reports_of (h : Helper DSig ρ) (k : Cont ρ δ Bool) (hk : ∀ r dv, (k r dv).1 = .ok r.isSome) (ends : DSig → Prop)
    (he : ∀ y, (∃ c ∈ h.conns, c.react y ≠ none) ↔ ends y) (t : Int) (d : δ) :
    Reports ((Call.wait h k).out t d) t ends h.own := by
  show Reports (fun ops => (run h k t d ops).out) t ends h.own
  have two : ∀ ops r, (run h k t d ops).out = some r →
      (r = .ok true ∧ ∃ x ∈ heard ops, ends x) ∨ (r = .ok false ∧ 0 ≤ t ∧ t ≤ elapsed ops) := by
    intro ops r hr
    rcases returned _ _ t d ops hr with ⟨pre, post, rfl, v, e, ⟨y, hy, c, hc, e2⟩, _⟩ | ⟨pre, post, rfl, e, h1, h2, _⟩
    · left; exact ⟨by rw [e, hk]; rfl, y, heard_prefix _ _ hy, (he y).mp ⟨c, hc, by simp [e2]⟩⟩
    · right; refine ⟨by rw [e, hk]; rfl, h1, ?_⟩; rw [elapsed_append]; omega
  have hmiss : ∀ ops : List (Op DSig δ), (∀ x ∈ heard ops, ¬ ends x) → ∀ y ∈ heard ops, ∀ c ∈ h.conns, c.react y = none := by
    intro ops hx y hy c hc
    cases hr : c.react y with
    | none => rfl
    | some u => exact absurd ((he y).mp ⟨c, hc, by simp [hr]⟩) (hx y hy)
  refine ⟨?_, ?_, ?_, ?_, ?_, ?_, ?_, ?_, ?_⟩
  · intro ops r hr; rcases two ops r hr with h | h <;> simp [h.1]
  · intro ops hr; rcases two ops _ hr with h | h
    · exact h.2
    · cases h.1
  · intro ops hr; rcases two ops _ hr with h | h
    · cases h.1
    · exact h.2
  · intro ops ops' r hr; rw [returned_stays _ _ t d ops ops' hr]; exact hr
  · intro ops x hx hex ht
    obtain ⟨n, m, hm⟩ := completes h k t d ops hx (hit_ne_none.mpr ((he x).mpr hex))
    refine ⟨n, m, ?_⟩
    obtain ⟨r, hr⟩ := Option.isSome_iff_exists.mp hm
    rcases two _ r hr with h | h
    · rw [hr, h.1]
    · exfalso; have h2 := h.2; rw [elapsed_replicate _ rfl, elapsed_replicate _ rfl] at h2; omega
  · intro ops x hx hex; exact completes h k t d ops hx (hit_ne_none.mpr ((he x).mpr hex))
  · intro ops h0 ht he' hex
    rw [(times_out h k t d ops h0 ht he' hex).1, hk]; rfl
  · intro ops hx ht; exact pending _ _ t d ops (hmiss ops hx) ht
  · intro hown ops hx hg h0 ops'; exact own_gone_hangs h k t d ops hown h0 hg (hmiss ops hx) ops'

theorem own_ends (x y : DSig) : (∃ c ∈ (ownSignal x).conns, c.react y ≠ none) ↔ y = x := by
  simp [ownSignal]

theorem own_reports (x : DSig) (t : Int) (d : δ) :
    Reports ((Call.wait (ownSignal x) (fun r dv => (.ok r.isSome, dv)) : Call Unit δ Bool).out t d) t (· = x) true :=
  reports_of (ownSignal x) _ (fun _ _ => rfl) _ (own_ends x) t d

/-! ### C41: QProcess -/

/-- waitForStarted: running → true, not running → false, both at once; starting → reports whether `started` comes in time. -/
theorem C41_waitForStarted (p : ProcState) (t : Int) :
    (p = .running → ∀ ops, (procWaitForStarted (some p)).out t p ops = some (.ok true)) ∧
    (p = .notRunning → ∀ ops, (procWaitForStarted (some p)).out t p ops = some (.ok false)) ∧
    (p = .starting → Reports ((procWaitForStarted (some p)).out t p) t (· = .started) true) := by
  refine ⟨?_, ?_, ?_⟩ <;> rintro rfl
  · intro ops; rfl
  · intro ops; rfl
  · exact own_reports _ _ _

/-- waitForFinished: not running → false at once; otherwise reports whether `finished` comes in time. -/
theorem C41_waitForFinished (p : ProcState) (t : Int) :
    (p = .notRunning → ∀ ops, (procWaitForFinished (some p)).out t p ops = some (.ok false)) ∧
    (p ≠ .notRunning → Reports ((procWaitForFinished (some p)).out t p) t (· = .finished) true) := by
  refine ⟨?_, ?_⟩
  · rintro rfl; intro ops; rfl
  · intro hp
    unfold procWaitForFinished
    dsimp only
    rw [if_neg hp]
    exact own_reports _ _ _

/-- start: the process was started, whatever state `p` it was in; its state is then `p'`. Running at once → true, not running at once →
false, and starting → reports whether `started` comes in time. A null process is dereferenced. -/
theorem C41_start (p p' : ProcState) (t : Int) :
    (p' = .running → ∀ ops, (procStart (some p) p').out t p' ops = some (.ok true)) ∧
    (p' = .notRunning → ∀ ops, (procStart (some p) p').out t p' ops = some (.ok false)) ∧
    (p' = .starting → Reports ((procStart (some p) p').out t p') t (· = .started) true) ∧
    ∀ ops, (procStart none p').out t p' ops = some .nullDeref := by
  refine ⟨?_, ?_, ?_, ?_⟩
  · rintro rfl; intro ops; rfl
  · rintro rfl; intro ops; rfl
  · rintro rfl; exact own_reports _ _ _
  · intro ops; rfl

/-- Found: a process that fails to start emits errorOccurred and never `started`; without timeout the wait never ends. -/
theorem C41_failed_start_hangs (t : Int) (ht : t < 0) (ops : List (Op DSig ProcState)) (hno : .started ∉ heard ops) :
    (procWaitForStarted (some .starting)).out t .starting ops = none :=
  (own_reports .started t ProcState.starting).pending ops (fun x hx e => hno (e ▸ hx)) (.inl ht)

/-- A null process is dereferenced (undefined behaviour). -/
theorem C41_null (t : Int) (p : ProcState) (ops : List (Op DSig ProcState)) :
    (procWaitForStarted none).out t p ops = some .nullDeref ∧ (procWaitForFinished none).out t p ops = some .nullDeref := ⟨rfl, rfl⟩

/-- Non-vacuity: the process starts after 20 ms of at most 100; and one that does not start within 100. -/
example : (procWaitForStarted (some .starting)).out 100 .starting [.time 20, .sig .started false, .deliver] = some (.ok true) := by decide
example : (procWaitForStarted (some .starting)).out 100 .starting [.time 120, .fire] = some (.ok false) := by decide
example : (procWaitForStarted (some .starting)).out (-1) .starting [.sig .errorOccurred false, .dev .notRunning, .time 1000, .deliver, .fire] = none := by decide

/-! ### C44: QAbstractSocket -/

/-- waitForConnected: connected → true at once; otherwise reports whether `connected` comes in time. -/
theorem C44_waitForConnected (s : TcpState) (t : Int) :
    (s = .connected → ∀ ops, (tcpWaitForConnected (some s)).out t s ops = some (.ok true)) ∧
    (s ≠ .connected → Reports ((tcpWaitForConnected (some s)).out t s) t (· = .connected) true) := by
  refine ⟨?_, ?_⟩
  · rintro rfl; intro ops; rfl
  · intro hs; unfold tcpWaitForConnected; dsimp only; rw [if_neg hs]; exact own_reports _ _ _

/-- waitForDisconnected: unconnected → false at once; otherwise reports whether `disconnected` comes in time. -/
theorem C44_waitForDisconnected (s : TcpState) (t : Int) :
    (s = .unconnected → ∀ ops, (tcpWaitForDisconnected (some s)).out t s ops = some (.ok false)) ∧
    (s ≠ .unconnected → Reports ((tcpWaitForDisconnected (some s)).out t s) t (· = .disconnected) true) := by
  refine ⟨?_, ?_⟩
  · rintro rfl; intro ops; rfl
  · intro hs; unfold tcpWaitForDisconnected; dsimp only; rw [if_neg hs]; exact own_reports _ _ _

/-- connectToHost: connects, whatever state `s` the socket was in; its state is then `s'`. Connected at once → true, otherwise reports
whether `connected` comes in time. A null socket is dereferenced. -/
theorem C44_connectToHost (s s' : TcpState) (t : Int) :
    (s' = .connected → ∀ ops, (tcpConnect (some s) s').out t s' ops = some (.ok true)) ∧
    (s' ≠ .connected → Reports ((tcpConnect (some s) s').out t s') t (· = .connected) true) ∧
    ∀ ops, (tcpConnect none s').out t s' ops = some .nullDeref := by
  refine ⟨?_, ?_, fun ops => rfl⟩
  · rintro rfl; intro ops; rfl
  · intro hs; exact (C44_waitForConnected s' t).2 hs

/-- A null socket is dereferenced. -/
theorem C44_null (t : Int) (s : TcpState) (ops : List (Op DSig TcpState)) :
    (tcpWaitForConnected none).out t s ops = some .nullDeref ∧ (tcpWaitForDisconnected none).out t s ops = some .nullDeref := ⟨rfl, rfl⟩

/-- Found: a refused connection (errorOccurred, stateChanged to unconnected, never `connected`) does not end the wait. -/
theorem C44_refused_hangs (s : TcpState) (hs : s ≠ .connected) (t : Int) (ht : t < 0) (ops : List (Op DSig TcpState)) (hno : .connected ∉ heard ops) :
    (tcpWaitForConnected (some s)).out t s ops = none :=
  ((C44_waitForConnected s t).2 hs).pending ops (fun x hx e => hno (e ▸ hx)) (.inl ht)

example : (tcpConnect (some .unconnected) .hostLookup).out 500 .hostLookup
    [.dev .connecting, .sig (.tcpState .connecting) false, .time 30, .dev .connected, .sig .connected false, .deliver] = some (.ok true) := by decide
example : (tcpWaitForConnected (some .connecting)).out (-1) .connecting
    [.sig .errorOccurred false, .dev .unconnected, .sig (.tcpState .unconnected) false, .time 100000, .deliver, .fire] = none := by decide
example : (tcpWaitForDisconnected (some .closing)).out 10 .closing [.sig .disconnected true, .time 9, .deliver] = some (.ok true) := by decide

/-! ### C45: QLocalSocket -/

/-- Specification: the first of `connected` (true) and becoming unconnected (false) decides. -/
def verdict : List DSig → Option Bool
  | [] => none
  | .connected :: _ => some true
  | .localState .unconnected :: _ => some false
  | _ :: l => verdict l

theorem verdict_eq (l : List DSig) : l.findSome? connectedHelper.hit = verdict l := by
  induction l with
  | nil => rfl
  | cons x l ih =>
    rw [List.findSome?_cons]
    cases x with
    | connected => rfl
    | localState s => cases s <;> first | rfl | (rw [show connectedHelper.hit (.localState _) = none from rfl]; exact ih)
    | _ => exact ih

/-- waitForConnected: connected → true at once. -/
theorem C45_connected (t : Int) (ops : List (Op DSig LocalState)) : (locWaitForConnected (some .connected)).out t .connected ops = some (.ok true) := rfl

/-- Otherwise: the result is the verdict of the signals, or false after the timeout. -/
theorem C45_waitForConnected (s : LocalState) (hs : s ≠ .connected) (t : Int) (ops : List (Op DSig LocalState)) (hc : noCross ops = true) (r : Res Bool)
    (hr : (locWaitForConnected (some s)).out t s ops = some r) :
    (∃ b, verdict (heard ops) = some b ∧ r = .ok b) ∨ (r = .ok false ∧ 0 ≤ t ∧ t ≤ elapsed ops) := by
  unfold locWaitForConnected at hr
  dsimp only at hr
  rw [if_neg hs] at hr
  rcases returned _ _ t s ops hr with ⟨pre, post, rfl, v, e, _, hf⟩ | ⟨pre, post, rfl, e, h1, h2, _⟩
  · left
    rw [noCross_append] at hc
    simp only [Bool.and_eq_true] at hc
    have := hf rfl hc.1
    refine ⟨v, ?_, by rw [e]; rfl⟩
    rw [← verdict_eq, heard_append, List.findSome?_append, this]; rfl
  · right; refine ⟨by rw [e]; rfl, h1, ?_⟩; rw [elapsed_append]; omega

/-- In time, the verdict is returned once the event loop delivers it. -/
theorem C45_complete (s : LocalState) (hs : s ≠ .connected) (t : Int) (ops : List (Op DSig LocalState)) (hc : noCross ops = true) (b : Bool)
    (hv : verdict (heard ops) = some b) (ht : t < 0 ∨ (elapsed ops : Int) < t) :
    ∃ m, (locWaitForConnected (some s)).out t s (ops ++ List.replicate m .deliver) = some (.ok b) := by
  have hx : ∃ y ∈ heard ops, connectedHelper.hit y ≠ none := by
    rw [← verdict_eq, List.findSome?_eq_some_iff] at hv
    obtain ⟨p, y, q, e, hy, _⟩ := hv
    exact ⟨y, by rw [e]; simp, by simp [hy]⟩
  obtain ⟨y, hy, hh⟩ := hx
  have h1 : ∃ m, ((locWaitForConnected (some s)).out t s (ops ++ List.replicate m .deliver)).isSome = true := by
    unfold locWaitForConnected; dsimp only; rw [if_neg hs]
    exact completes_direct connectedHelper _ t s ops hy hh rfl hc
  obtain ⟨m, hm⟩ := h1
  refine ⟨m, ?_⟩
  obtain ⟨r, hr⟩ := Option.isSome_iff_exists.mp hm
  rcases C45_waitForConnected s hs t _ (by rw [noCross_replicate _ rfl]; exact hc) r hr with ⟨b', e1, e2⟩ | ⟨_, e2, e3⟩
  · rw [heard_replicate _ rfl, hv] at e1; cases e1; rw [hr, e2]
  · rw [elapsed_replicate _ rfl] at e3; omega

/-- It returns once. -/
theorem C45_once (s : LocalState) (t : Int) (ops ops' : List (Op DSig LocalState)) (r : Res Bool)
    (hr : (locWaitForConnected (some s)).out t s ops = some r) : (locWaitForConnected (some s)).out t s (ops ++ ops') = some r := by
  unfold locWaitForConnected at hr ⊢
  dsimp only at hr ⊢
  by_cases hs : s = .connected
  · rw [if_pos hs] at hr ⊢; exact hr
  · rw [if_neg hs] at hr ⊢; show (run _ _ t s _).out = _; rw [returned_stays _ _ t s ops ops' hr]; exact hr

/-- The timeout ends it. -/
theorem C45_timeout (s : LocalState) (hs : s ≠ .connected) (t : Int) (ops : List (Op DSig LocalState))
    (h0 : (locWaitForConnected (some s)).out t s ops = none) (ht : 0 ≤ t) (he : t ≤ elapsed ops) :
    (locWaitForConnected (some s)).out t s (ops ++ [.fire]) = some (.ok false) := by
  unfold locWaitForConnected at h0 ⊢
  dsimp only at h0 ⊢
  rw [if_neg hs] at h0 ⊢
  exact (times_out connectedHelper _ t s ops h0 ht he (by intro h; cases h)).1

/-- Without a verdict and a timeout it keeps waiting. -/
theorem C45_pending (s : LocalState) (hs : s ≠ .connected) (t : Int) (ops : List (Op DSig LocalState)) (hc : noCross ops = true)
    (hv : verdict (heard ops) = none) (ht : t < 0 ∨ (elapsed ops : Int) < t) : (locWaitForConnected (some s)).out t s ops = none := by
  cases hr : (locWaitForConnected (some s)).out t s ops with
  | none => rfl
  | some r =>
    rcases C45_waitForConnected s hs t ops hc r hr with ⟨b, e, _⟩ | ⟨_, e1, e2⟩
    · rw [hv] at e; cases e
    · omega

/-- waitForDisconnected: unconnected → false at once; otherwise reports whether `disconnected` comes in time. -/
theorem C45_waitForDisconnected (s : LocalState) (t : Int) :
    (s = .unconnected → ∀ ops, (locWaitForDisconnected (some s)).out t s ops = some (.ok false)) ∧
    (s ≠ .unconnected → Reports ((locWaitForDisconnected (some s)).out t s) t (· = .disconnected) true) := by
  refine ⟨?_, ?_⟩
  · rintro rfl; intro ops; rfl
  · intro hs; unfold locWaitForDisconnected; dsimp only; rw [if_neg hs]; exact own_reports _ _ _

/-- Specification: the call reports the verdict of the signals emitted since, or false after the timeout. -/
structure Verdicts (out : List (Op DSig δ) → Option (Res Bool)) (t : Int) : Prop where
  /-- the result is the verdict, or false after the timeout -/
  result : ∀ ops r, noCross ops = true → out ops = some r →
    (∃ b, verdict (heard ops) = some b ∧ r = .ok b) ∨ (r = .ok false ∧ 0 ≤ t ∧ t ≤ elapsed ops)
  /-- it returns once -/
  once : ∀ ops ops' r, out ops = some r → out (ops ++ ops') = some r
  /-- a verdict in time is returned as soon as the event loop delivers what is posted -/
  complete : ∀ ops b, noCross ops = true → verdict (heard ops) = some b → t < 0 ∨ (elapsed ops : Int) < t →
    ∃ m, out (ops ++ List.replicate m .deliver) = some (.ok b)
  /-- timeout elapsed: it returns false when the event loop notices -/
  timeout : ∀ ops, out ops = none → 0 ≤ t → t ≤ elapsed ops → out (ops ++ [.fire]) = some (.ok false)
  /-- otherwise it keeps waiting -/
  pending : ∀ ops, noCross ops = true → verdict (heard ops) = none → t < 0 ∨ (elapsed ops : Int) < t → out ops = none

/-- A null socket is dereferenced. -/
theorem C45_null (t : Int) (s : LocalState) (ops : List (Op DSig LocalState)) :
    (locWaitForConnected none).out t s ops = some .nullDeref ∧ (locWaitForDisconnected none).out t s ops = some .nullDeref := ⟨rfl, rfl⟩

/-- connectToServer: connects, whatever state `s` the socket was in; its state is then `s'`. Connected at once → true, otherwise reports
the verdict of the signals. A null socket is dereferenced. -/
theorem C45_connectToServer (s s' : LocalState) (t : Int) :
    (s' = .connected → ∀ ops, (locConnect (some s) s').out t s' ops = some (.ok true)) ∧
    (s' ≠ .connected → Verdicts ((locConnect (some s) s').out t s') t) ∧
    ∀ ops, (locConnect none s').out t s' ops = some .nullDeref := by
  refine ⟨?_, ?_, fun ops => rfl⟩
  · rintro rfl; intro ops; rfl
  · intro hs
    exact ⟨fun ops r hc hr => C45_waitForConnected s' hs t ops hc r hr, fun ops ops' r hr => C45_once s' t ops ops' r hr,
      fun ops b hc hv ht => C45_complete s' hs t ops hc b hv ht, fun ops h0 ht he => C45_timeout s' hs t ops h0 ht he,
      fun ops hc hv ht => C45_pending s' hs t ops hc hv ht⟩

example : (locConnect (some .unconnected) .connecting).out 100 .connecting
    [.sig .errorOccurred false, .dev .unconnected, .sig (.localState .unconnected) false, .sig .connected false, .deliver] = some (.ok false) := by decide
example : (locConnect (some .unconnected) .connecting).out 100 .connecting
    [.sig (.localState .connecting) false, .dev .connected, .sig (.localState .connected) false, .sig .connected false, .deliver] = some (.ok true) := by decide

/-! ### C46: QNetworkReply::waitForFinished -/

/-- finished → true at once; otherwise reports whether `finished` comes in time. -/
theorem C46_waitForFinished (f : Bool) (t : Int) :
    (f = true → ∀ ops, (replyWaitForFinished (some f)).out t f ops = some (.ok true)) ∧
    (f = false → Reports ((replyWaitForFinished (some f)).out t f) t (· = .finished) true) := by
  refine ⟨?_, ?_⟩ <;> rintro rfl
  · intro ops; rfl
  · exact own_reports _ _ _

example : (replyWaitForFinished (some false)).out 100 false [.sig .errorOccurred false, .dev true, .sig .finished false, .time 99, .deliver] = some (.ok true) := by decide
example : (replyWaitForFinished (some false)).out 100 false [.time 100, .sig .finished false, .fire] = some (.ok false) := by decide

/-! ### C38: waitForReadyRead -/

/-- Specification: the signals that end a wait for data, by kind of device. -/
def endsRead : DKind → DSig → Prop
  | .plain, x => x = .readyRead ∨ x = .aboutToClose
  | .tcp _, x => x = .readyRead ∨ x = .aboutToClose ∨ x = .tcpState .closing ∨ x = .tcpState .unconnected
  | .loc _, x => x = .readyRead ∨ x = .aboutToClose ∨ ∃ s, x = .localState s ∧ s ≠ .connected
  | .reply _, x => x = .readyRead ∨ x = .aboutToClose ∨ x = .errorOccurred ∨ x = .finished

/-- Specification: the devices for which the call really waits. -/
def waitsRead (d : Dev) : Prop :=
  d.readable = true ∧ d.buf = [] ∧
  match d.kind with
  | .plain => True
  | .tcp s => s = .connected
  | .loc s => s = .connected
  | .reply f => f = false

theorem readHelper_ends (k : DKind) (y : DSig) : (∃ c ∈ (readHelper k).conns, c.react y ≠ none) ↔ endsRead k y := by
  cases k <;> cases y <;> simp [readHelper, helper, baseConns, endsRead, onReadyRead]
  all_goals (rename_i s; cases s <;> simp)

/-- At once: null device → undefined behaviour; not readable → false; data available → true; a socket that is not connected,
or a finished reply, without data → true. -/
theorem C38_immediate (d : Dev) (t : Int) (ops : List (Op DSig Dev)) :
    (waitForReadyRead none).out t d ops = some .nullDeref ∧
    (d.readable = false → (waitForReadyRead (some d)).out t d ops = some (.ok false)) ∧
    (d.readable = true → d.buf ≠ [] → (waitForReadyRead (some d)).out t d ops = some (.ok true)) ∧
    (d.readable = true → ¬ waitsRead d → (waitForReadyRead (some d)).out t d ops = some (.ok true)) := by
  refine ⟨rfl, ?_, ?_, ?_⟩
  · intro h; unfold waitForReadyRead; simp [h, Call.out]
  · intro h hb
    have : d.buf.length > 0 := List.length_pos_iff.mpr hb
    unfold waitForReadyRead; simp [h, this, Call.out]
  · intro h hw
    unfold waitForReadyRead
    simp only [h, Bool.true_eq_false, if_false]
    split
    · rfl
    · rename_i hl
      have hb : d.buf = [] := by simpa using hl
      unfold waitsRead at hw
      cases hk : d.kind with
      | plain => simp [h, hb, hk] at hw
      | tcp s => simp [h, hb, hk] at hw; simp [readImpl, hw, Call.out]
      | loc s => simp [h, hb, hk] at hw; simp [readImpl, hw, Call.out]
      | reply f => simp [h, hb, hk] at hw; simp [readImpl, hw, Call.out]

/-- Otherwise: it reports whether one of `endsRead` came in time. -/
theorem C38_waits (d : Dev) (hw : waitsRead d) (t : Int) : Reports ((waitForReadyRead (some d)).out t d) t (endsRead d.kind) false := by
  obtain ⟨h1, h2, h3⟩ := hw
  unfold waitForReadyRead
  dsimp only
  rw [if_neg (by simp [h1]), if_neg (by simp [h2])]
  have hi : readImpl d.kind = .inr (readHelper d.kind) := by
    cases hk : d.kind <;> rw [hk] at h3 <;> simp_all [readImpl]
  rw [hi]
  dsimp only
  have := reports_of (readHelper d.kind) (fun r dv => ((Res.ok r.isSome : Res Bool), dv)) (fun _ _ => rfl) (endsRead d.kind) (readHelper_ends d.kind) t d
  rw [show (readHelper d.kind).own = false by cases d.kind <;> rfl] at this
  exact this

/-- Found: the property "true iff readyRead was emitted" fails: closing the device (no data) also yields true. -/
theorem C38_close_reports_true : ∃ ops : List (Op DSig Dev), DSig.readyRead ∉ heard ops ∧
    (waitForReadyRead (some {})).out (-1) {} ops = some (.ok true) :=
  ⟨[.sig .aboutToClose false, .deliver], by simp [heard], by decide⟩

/-- Found: so does a socket that is not connected, at once. -/
theorem C38_unconnected_reports_true (t : Int) (ops : List (Op DSig Dev)) :
    (waitForReadyRead (some { kind := .tcp .unconnected })).out t { kind := .tcp .unconnected } ops = some (.ok true) := rfl

/-- What does hold of the property as stated: while nothing but readyRead happens of `endsRead`, true means readyRead,
false means timeout. -/
theorem C38_exact_unless_closed (d : Dev) (hw : waitsRead d) (t : Int) (ops : List (Op DSig Dev)) (hq : ∀ x ∈ heard ops, endsRead d.kind x → x = .readyRead)
    (r : Res Bool) (hr : (waitForReadyRead (some d)).out t d ops = some r) :
    (r = .ok true ∧ .readyRead ∈ heard ops) ∨ (r = .ok false ∧ 0 ≤ t ∧ t ≤ elapsed ops) := by
  have h := C38_waits d hw t
  rcases h.result ops r hr with rfl | rfl
  · left; obtain ⟨x, hx, he⟩ := h.sound ops hr; exact ⟨rfl, hq x hx he ▸ hx⟩
  · right; exact ⟨rfl, h.notEarly ops hr⟩

example : waitsRead { kind := .tcp .connected } := by simp [waitsRead]
example : (waitForReadyRead (some { kind := .tcp .connected })).out 50 { kind := .tcp .connected }
    [.time 10, .sig (.tcpState .bound) false, .dev { kind := .tcp .connected, buf := [1, 2] }, .sig .readyRead false, .deliver] = some (.ok true) := by decide
example : (waitForReadyRead (some { kind := .reply false })).out 50 { kind := .reply false } [.sig .finished false, .handler, .deliver] = some (.ok true) := by decide
example : (waitForReadyRead (some { kind := .loc .connected })).out 50 { kind := .loc .connected } [.time 50, .gone, .fire] = some (.ok false) := by decide

/-! ### C39: waitForBytesWritten -/

/-- Specification: what the signals that end a wait for bytesWritten report, by kind of device. -/
def reportsWritten : DKind → DSig → Option Int
  | _, .bytesWritten n => some n
  | _, .aboutToClose => some 0
  | .tcp _, .tcpState .closing => some 0
  | .tcp _, .tcpState .unconnected => some 0
  | .loc _, .localState .unconnected => some 0
  | .loc _, .localState .connecting => some 0
  | .loc _, .localState .closing => some 0
  | .reply _, .errorOccurred => some 0
  | .reply _, .finished => some 0
  | _, _ => none

def waitsWrite (d : Dev) : Prop :=
  d.writable = true ∧ d.toWrite ≠ 0 ∧
  match d.kind with
  | .plain => True
  | .tcp s => s = .connected
  | .loc s => s = .connected
  | .reply f => f = false

theorem writeHelper_hit (k : DKind) (y : DSig) : (writeHelper k).hit y = reportsWritten k y := by
  cases k <;> cases y <;> first | rfl | (rename_i s; cases s <;> rfl)

theorem writeHelper_react (k : DKind) (y : DSig) (v : Int) (h : ∃ c ∈ (writeHelper k).conns, c.react y = some v) : reportsWritten k y = some v := by
  revert h
  cases k <;> cases y <;> simp [writeHelper, helper, baseConns, reportsWritten, onBytesWritten]
  all_goals (try (rename_i s; cases s <;> simp))
  all_goals (try exact id)

/-- At once: null device → undefined behaviour; not writable → nothing; nothing to write → 0; a socket that is not
connected → nothing; a finished reply → 0. -/
theorem C39_immediate (d : Dev) (t : Int) (ops : List (Op DSig Dev)) :
    (waitForBytesWritten none).out t d ops = some .nullDeref ∧
    (d.writable = false → (waitForBytesWritten (some d)).out t d ops = some (.ok none)) ∧
    (d.writable = true → d.toWrite = 0 → (waitForBytesWritten (some d)).out t d ops = some (.ok (some 0))) ∧
    (d.writable = true → d.toWrite ≠ 0 → (∃ s, (d.kind = .tcp s ∧ s ≠ .connected)) ∨ (∃ s, (d.kind = .loc s ∧ s ≠ .connected)) →
      (waitForBytesWritten (some d)).out t d ops = some (.ok none)) ∧
    (d.writable = true → d.toWrite ≠ 0 → d.kind = .reply true → (waitForBytesWritten (some d)).out t d ops = some (.ok (some 0))) := by
  refine ⟨rfl, ?_, ?_, ?_, ?_⟩
  · intro h; unfold waitForBytesWritten; simp [h, Call.out]
  · intro h hz; unfold waitForBytesWritten; simp [h, hz, Call.out]
  · rintro h hz (⟨s, hk, hs⟩ | ⟨s, hk, hs⟩) <;> unfold waitForBytesWritten <;> simp [h, hz, hk, hs, writeImpl, Call.out]
  · intro h hz hk; unfold waitForBytesWritten; simp [h, hz, hk, writeImpl, Call.out]

theorem waitForBytesWritten_wait (d : Dev) (hw : waitsWrite d) : waitForBytesWritten (some d) = .wait (writeHelper d.kind) (fun r dv => (.ok r, dv)) := by
  obtain ⟨h1, h2, h3⟩ := hw
  unfold waitForBytesWritten
  dsimp only
  rw [if_neg (by simp [h1]), if_neg h2]
  have hi : writeImpl d.kind = .inr (writeHelper d.kind) := by
    cases hk : d.kind <;> rw [hk] at h3 <;> simp_all [writeImpl]
  rw [hi]

/-- Otherwise: it returns a number reported by a signal emitted since the call, or nothing after the timeout. -/
theorem C39_waits (d : Dev) (hw : waitsWrite d) (t : Int) (ops : List (Op DSig Dev)) (r : Res (Option Int))
    (hr : (waitForBytesWritten (some d)).out t d ops = some r) :
    (∃ x ∈ heard ops, ∃ n, reportsWritten d.kind x = some n ∧ r = .ok (some n)) ∨ (r = .ok none ∧ 0 ≤ t ∧ t ≤ elapsed ops) := by
  rw [waitForBytesWritten_wait d hw] at hr
  rcases returned _ _ t d ops hr with ⟨pre, post, rfl, v, e, ⟨y, hy, c, hc, e2⟩, _⟩ | ⟨pre, post, rfl, e, h1, h2, _⟩
  · left; exact ⟨y, heard_prefix _ _ hy, v, writeHelper_react d.kind y v ⟨c, hc, e2⟩, e⟩
  · right; refine ⟨e, h1, ?_⟩; rw [elapsed_append]; omega

/-- Except for replies (whose helper uses queued connections) it is the first such signal. -/
theorem C39_first (d : Dev) (hw : waitsWrite d) (hk : ∀ f, d.kind ≠ .reply f) (t : Int) (ops : List (Op DSig Dev)) (hc : noCross ops = true) (r : Res (Option Int))
    (hr : (waitForBytesWritten (some d)).out t d ops = some r) :
    (∃ n, (heard ops).findSome? (reportsWritten d.kind) = some n ∧ r = .ok (some n)) ∨ (r = .ok none ∧ 0 ≤ t ∧ t ≤ elapsed ops) := by
  rw [waitForBytesWritten_wait d hw] at hr
  rcases returned _ _ t d ops hr with ⟨pre, post, rfl, v, e, _, hf⟩ | ⟨pre, post, rfl, e, h1, h2, _⟩
  · left
    rw [noCross_append] at hc
    simp only [Bool.and_eq_true] at hc
    have hdir : (writeHelper d.kind).direct = true := by
      cases hk' : d.kind with
      | reply f => exact absurd hk' (hk f)
      | _ => rfl
    have := hf hdir hc.1
    refine ⟨v, ?_, e⟩
    rw [show (writeHelper d.kind).hit = reportsWritten d.kind from funext (writeHelper_hit d.kind)] at this
    rw [heard_append, List.findSome?_append, this]; rfl
  · right; refine ⟨e, h1, ?_⟩; rw [elapsed_append]; omega

/-- In time, something is returned once the event loop delivers it. -/
theorem C39_complete (d : Dev) (hw : waitsWrite d) (t : Int) (ops : List (Op DSig Dev)) (x : DSig) (hx : x ∈ heard ops) (hr : reportsWritten d.kind x ≠ none)
    (ht : t < 0 ∨ (elapsed ops : Int) < t) :
    ∃ n m v, (waitForBytesWritten (some d)).out t d (ops ++ List.replicate n .handler ++ List.replicate m .deliver) = some (.ok (some v)) := by
  have h1 := completes (writeHelper d.kind) (fun r dv => ((Res.ok r : Res (Option Int)), dv)) t d ops hx (by rw [writeHelper_hit]; exact hr)
  obtain ⟨n, m, h⟩ := h1
  obtain ⟨r, hr'⟩ := Option.isSome_iff_exists.mp h
  refine ⟨n, m, ?_⟩
  have hr2 : (waitForBytesWritten (some d)).out t d (ops ++ List.replicate n .handler ++ List.replicate m .deliver) = some r := by
    rw [waitForBytesWritten_wait d hw]; exact hr'
  rcases C39_waits d hw t _ r hr2 with ⟨_, _, v, _, e⟩ | ⟨_, _, e⟩
  · exact ⟨v, by rw [hr2, e]⟩
  · rw [elapsed_replicate _ rfl, elapsed_replicate _ rfl] at e; omega

/-- The timeout ends it with nothing. -/
theorem C39_timeout (d : Dev) (hw : waitsWrite d) (t : Int) (ops : List (Op DSig Dev)) (h0 : (waitForBytesWritten (some d)).out t d ops = none)
    (ht : 0 ≤ t) (he : t ≤ elapsed ops) : (waitForBytesWritten (some d)).out t d (ops ++ [.fire]) = some (.ok none) := by
  rw [waitForBytesWritten_wait d hw] at h0 ⊢
  exact (times_out (writeHelper d.kind) _ t d ops h0 ht he (by intro h; cases hk : d.kind <;> rw [hk] at h <;> cases h)).1

/-- It returns once. -/
theorem C39_once (d : Dev) (hw : waitsWrite d) (t : Int) (ops ops' : List (Op DSig Dev)) (r : Res (Option Int))
    (hr : (waitForBytesWritten (some d)).out t d ops = some r) : (waitForBytesWritten (some d)).out t d (ops ++ ops') = some r := by
  rw [waitForBytesWritten_wait d hw] at hr ⊢
  show (run _ _ t d _).out = _
  rw [returned_stays _ _ t d ops ops' hr]; exact hr

example : waitsWrite { toWrite := 5 } := by simp [waitsWrite]
example : (waitForBytesWritten (some { toWrite := 5 })).out (-1) { toWrite := 5 } [.sig (.bytesWritten 3) false, .sig (.bytesWritten 2) false, .deliver] = some (.ok (some 3)) := by decide
example : (waitForBytesWritten (some { toWrite := 5 })).out 10 { toWrite := 5 } [.time 10, .fire] = some (.ok none) := by decide

/-! ### C36: of several racing signals exactly one decides -/

/-- Whatever helper: the waiting coroutine is continued at most once, whatever is emitted afterwards. -/
theorem C36_once (h : Helper DSig ρ) (k : Cont ρ δ β) (t : Int) (d : δ) (ops ops' : List (Op DSig δ)) (r : Res β)
    (hr : (run h k t d ops).out = some r) : (run h k t d (ops ++ ops')).out = some r := by
  rw [returned_stays h k t d ops ops' hr]; exact hr

/-- Helpers with synchronous handlers (devices, sockets): the first signal that matters decides, with the value of that signal.
Stated for the code `k` after the wait being the identity. -/
theorem C36_first (h : Helper DSig ρ) (hd : h.direct = true) (t : Int) (d : δ) (ops : List (Op DSig δ)) (hc : noCross ops = true) (r : Option ρ)
    (hr : (run h (fun r dv => (.ok r, dv)) t d ops).out = some (.ok r)) :
    (∃ v, r = some v ∧ (heard ops).findSome? h.hit = some v) ∨ (r = none ∧ 0 ≤ t ∧ t ≤ elapsed ops) := by
  rcases returned _ _ t d ops hr with ⟨pre, post, rfl, v, e, _, hf⟩ | ⟨pre, post, rfl, e, h1, h2, _⟩
  · left
    rw [noCross_append] at hc
    simp only [Bool.and_eq_true] at hc
    cases e
    refine ⟨v, rfl, ?_⟩
    rw [heard_append, List.findSome?_append, hf hd hc.1]; rfl
  · right; cases e; refine ⟨rfl, h1, ?_⟩; rw [elapsed_append]; omega

/-- The device and socket helpers are such helpers. -/
theorem C36_direct : (readHelper .plain).direct = true ∧ (writeHelper .plain).direct = true ∧ connectedHelper.direct = true ∧
    (∀ s, (readHelper (.tcp s)).direct = true ∧ (writeHelper (.tcp s)).direct = true) ∧
    (∀ s, (readHelper (.loc s)).direct = true ∧ (writeHelper (.loc s)).direct = true) :=
  ⟨rfl, rfl, rfl, fun _ => ⟨rfl, rfl⟩, fun _ => ⟨rfl, rfl⟩⟩

/-- Found: the helper for replies uses queued connections: errorOccurred (false) is overtaken by a later readyRead (true). -/
theorem C36_reply_overtaken : ∃ ops : List (Op DSig Dev), noCross ops = true ∧
    (heard ops).findSome? (readHelper (.reply false)).hit = some false ∧
    (run (readHelper (.reply false)) (fun r dv => ((Res.ok r : Res (Option Bool)), dv)) (-1) {} ops).out = some (.ok (some true)) :=
  ⟨[.sig .errorOccurred false, .sig .readyRead false, .handler, .deliver], by decide, by decide, by decide⟩

/-- Found: the socket helpers do not drop the stateChanged connection when readyRead comes first: `ready` is emitted twice
(only the first reaches the coroutine, by `C36_once`). -/
theorem C36_emits_twice : ∃ ops : List (Op DSig Dev),
    Sig.emissions (run (readHelper (.tcp .connected)) (fun r dv => ((Res.ok r : Res (Option Bool)), dv)) (-1) {} ops).sg.log = [true, false] :=
  ⟨[.sig .readyRead false, .sig (.tcpState .closing) false], by decide⟩

/-- Bounding the emissions of a helper by a potential of its live connections. -/
theorem emits_le (h : Helper DSig ρ) (φ : (Nat → Bool) → Nat)
    (hφ : ∀ c i live, h.conns[i]? = some c → live i = true → φ (fun j => live j && !(c.disc.contains j)) + 1 ≤ φ live)
    (hd : h.direct = true) (hown : h.own = false) (k : Cont ρ δ β) (t : Int) (d : δ) (ops : List (Op DSig δ)) (hc : noCross ops = true) :
    (Sig.emissions (run h k t d ops).sg.log).length + φ (run h k t d ops).live ≤ φ (fun _ => true) := by
  induction ops using snocInd with
  | nil => simp [run, start, Sig.one, Sig.exec, Sig.step, Sig.State.emit]
  | snoc l op ih =>
    rw [noCross_append, Bool.and_eq_true] at hc
    have ih := ih hc.1
    have hi := inv_run h k t d l
    rw [run_snoc]
    unfold step
    split
    · exact ih
    · rename_i ho
      have hon : (run h k t d l).out = none := by simpa using ho
      have hp := hi.pend hon
      have hq := (hi.first hd hc.1).1
      have hal : (run h k t d l).sg.alive = true := by rw [hp.2.1, hown]; rfl
      have hub := Single.ub hi.sg
      have hs : Single t (run h k t d l) := hi.sg
      generalize run h k t d l = s at *
      cases op with
      | sig x cross =>
        dsimp only
        have hcr : cross = false := by cases cross with | false => rfl | true => simp [noCross] at hc
        split
        · have fold : ∀ (L : List (Conn DSig ρ × Nat)) (s : State DSig ρ δ β), (∀ ci ∈ L, h.conns[ci.2]? = some ci.1) → Single t s → s.sg.alive = true →
              (Sig.emissions s.sg.log).length + φ s.live ≤ φ (fun _ => true) →
              (Sig.emissions (L.foldl (State.activate h x cross) s).sg.log).length + φ (L.foldl (State.activate h x cross) s).live ≤ φ (fun _ => true) := by
            intro L
            induction L with
            | nil => intro s _ _ _ h; exact h
            | cons ci L ih2 =>
              intro s hL hs hal hh'
              have ha := act_activate h x cross hs hal ci
              rw [List.foldl_cons]
              apply ih2 _ (fun cj hcj => hL cj (by simp [hcj])) (ha.1.sg hs) (ha.1.alive.trans hal)
              unfold State.activate
              split
              · exact hh'
              · rename_i r hr
                split
                · rename_i hlive
                  have hci := hL ci (by simp)
                  have hnq : ci.1.queued = false := by
                    unfold Helper.direct at hd
                    simp only [hown, Bool.false_or, List.all_eq_true] at hd
                    simpa using hd ci.1 (List.mem_of_getElem? hci)
                  rw [if_neg (by simp [hnq, hcr])]
                  have he := (act_ready hs hal ci.1 r).2.1
                  have := hφ ci.1 ci.2 s.live hci hlive
                  rw [he]
                  show _ + φ (fun j => s.live j && !(ci.1.disc.contains j)) ≤ _
                  rw [List.length_append]
                  simp only [List.length_cons, List.length_nil]
                  omega
                · exact hh'
          apply fold _ s _ hs hal ih
          intro ci hci
          exact List.mk_mem_zipIdx_iff_getElem?.mp (show (ci.1, ci.2) ∈ h.conns.zipIdx from hci)
        · exact ih
      | dev d' => dsimp only; split <;> exact ih
      | gone => dsimp only; rw [if_neg (by simp [hown])]; exact ih
      | handler => dsimp only; rw [hq]; exact ih
      | deliver =>
        obtain ⟨f1, f2, f3, _⟩ := settle_facts k ({ s with sg := Sig.step s.sg (.process 0) } : State DSig ρ δ β) hon
        dsimp only
        rw [f1, f3]
        dsimp only
        rw [(Sig.step_process s.sg 0).1]; exact ih
      | time n => dsimp only; rw [(Sig.step_time s.sg hub n).1]; exact ih
      | fire =>
        obtain ⟨f1, _, f3, _⟩ := settle_facts k ({ s with sg := Sig.step s.sg (.fire 0) } : State DSig ρ δ β) hon
        dsimp only
        rw [f1, f3]
        dsimp only
        rw [(Sig.step_fire s.sg 0).1]; exact ih

/-- The helper of plain devices and the one of QCoroLocalSocket::waitForConnected emit `ready` at most once, whatever signals follow. -/
theorem C36_emits_once (k : Cont Bool δ β) (k' : Cont Int δ β) (t : Int) (d : δ) (ops : List (Op DSig δ)) (hc : noCross ops = true) :
    (Sig.emissions (run (readHelper .plain) k t d ops).sg.log).length ≤ 1 ∧
    (Sig.emissions (run (writeHelper .plain) k' t d ops).sg.log).length ≤ 1 ∧
    (Sig.emissions (run connectedHelper k t d ops).sg.log).length ≤ 1 := by
  let φ : (Nat → Bool) → Nat := fun live => if live 0 || live 1 then 1 else 0
  refine ⟨?_, ?_, ?_⟩
  · exact Nat.le_trans (Nat.le_add_right _ _) (emits_le (readHelper .plain) φ (by
      intro c i live hi hl
      match i, hi with
      | 0, hi => cases hi; simp [φ, hl]
      | 1, hi => cases hi; simp [φ, hl]) rfl rfl k t d ops hc)
  · exact Nat.le_trans (Nat.le_add_right _ _) (emits_le (writeHelper .plain) φ (by
      intro c i live hi hl
      match i, hi with
      | 0, hi => cases hi; simp [φ, hl]
      | 1, hi => cases hi; simp [φ, hl]) rfl rfl k' t d ops hc)
  · exact Nat.le_trans (Nat.le_add_right _ _) (emits_le connectedHelper φ (by
      intro c i live hi hl
      match i, hi with
      | 0, hi => cases hi; simp [φ, hl]
      | 1, hi => cases hi; simp [φ, hl]) rfl rfl k t d ops hc)

/-- The helpers of sockets emit at most twice (and `C36_emits_twice`: twice it may be). -/
theorem C36_socket_emits_at_most_twice (kd : DKind) (hkd : ∀ f, kd ≠ .reply f) (k : Cont Bool δ β) (k' : Cont Int δ β) (t : Int) (d : δ)
    (ops : List (Op DSig δ)) (hc : noCross ops = true) :
    (Sig.emissions (run (readHelper kd) k t d ops).sg.log).length ≤ 2 ∧ (Sig.emissions (run (writeHelper kd) k' t d ops).sg.log).length ≤ 2 := by
  cases kd with
  | plain => have := C36_emits_once k k' t d ops hc; omega
  | reply f => exact absurd rfl (hkd f)
  | _ s =>
    let φ : (Nat → Bool) → Nat := fun live => (if live 0 || live 1 then 1 else 0) + (if live 2 then 1 else 0)
    constructor <;>
    · refine Nat.le_trans (Nat.le_add_right _ _) (emits_le _ φ ?_ rfl rfl _ t d ops hc)
      intro c i live hi hl
      match i, hi with
      | 0, hi => cases hi; simp [φ, hl]; omega
      | 1, hi => cases hi; simp [φ, hl]; omega
      | 2, hi => cases hi; simp [φ, hl]

/-- What a signal says to somebody waiting for data: data has come, or the device is closing, disconnecting, failing (false), or (a reply) done. -/
def reportsRead : DKind → DSig → Option Bool
  | _, .readyRead => some true
  | _, .aboutToClose => some false
  | .tcp _, .tcpState .closing => some false
  | .tcp _, .tcpState .unconnected => some false
  | .loc _, .localState .unconnected => some false
  | .loc _, .localState .connecting => some false
  | .loc _, .localState .closing => some false
  | .reply _, .errorOccurred => some false
  | .reply _, .finished => some true
  | _, _ => none

/-- What the read helpers of devices and sockets report is what the first signal that matters says. -/
theorem C36_first_read (kd : DKind) (hkd : ∀ f, kd ≠ .reply f) (t : Int) (d : δ) (ops : List (Op DSig δ)) (hc : noCross ops = true) (r : Option Bool)
    (hr : (run (readHelper kd) (fun r dv => (.ok r, dv)) t d ops).out = some (.ok r)) :
    (∃ v, r = some v ∧ (heard ops).findSome? (reportsRead kd) = some v) ∨ (r = none ∧ 0 ≤ t ∧ t ≤ elapsed ops) := by
  have e : (readHelper kd).hit = reportsRead kd := by
    funext y
    cases kd <;> cases y <;> first | rfl | (rename_i s; cases s <;> rfl)
  rw [← e]
  exact C36_first _ (by cases kd with | reply f => exact absurd rfl (hkd f) | _ => rfl) t d ops hc r hr

/-- The same for the write helpers. -/
theorem C36_first_write (kd : DKind) (hkd : ∀ f, kd ≠ .reply f) (t : Int) (d : δ) (ops : List (Op DSig δ)) (hc : noCross ops = true) (r : Option Int)
    (hr : (run (writeHelper kd) (fun r dv => (.ok r, dv)) t d ops).out = some (.ok r)) :
    (∃ v, r = some v ∧ (heard ops).findSome? (reportsWritten kd) = some v) ∨ (r = none ∧ 0 ≤ t ∧ t ≤ elapsed ops) := by
  rw [← show (writeHelper kd).hit = reportsWritten kd from funext (writeHelper_hit kd)]
  exact C36_first _ (by cases kd with | reply f => exact absurd rfl (hkd f) | _ => rfl) t d ops hc r hr

/-- Met by a socket that is closed right after data came: `true`, the first of the two. -/
example : (run (readHelper (.tcp .connected)) (fun r dv => ((Res.ok r : Res (Option Bool)), dv)) (-1) () [.sig .readyRead false, .sig (.tcpState .closing) false, .deliver]).out = some (.ok (some true)) := by decide

/-! ### C47: waitForNewConnection -/

/-- Not listening → null at once; pending connections → the oldest one at once, taken from the queue. -/
theorem C47_immediate (s : Server) (t : Int) (ops : List (Op DSig Server)) :
    (s.listening = false → (waitForNewConnection (some s)).out t s ops = some (.ok none)) ∧
    (∀ c rest, s.listening = true → s.pending = c :: rest →
      (waitForNewConnection (some s)).out t s ops = some (.ok (some c)) ∧ (waitForNewConnection (some s)).dev t s [] = some { s with pending := rest }) := by
  refine ⟨?_, ?_⟩
  · intro h; unfold waitForNewConnection; simp [h, Call.out]
  · intro c rest h hp; unfold waitForNewConnection; simp [h, hp, Call.out, Call.dev, Server.next, device]

theorem waitForNewConnection_wait (s : Server) (h : s.listening = true) (hp : s.pending = []) :
    waitForNewConnection (some s) = .wait (ownSignal .newConnection) afterNewConnection := by
  unfold waitForNewConnection; simp [h, hp]

/-- Otherwise, the step in which it returns: after newConnection it takes the oldest pending connection of that moment, or, if the
server was destroyed before the event loop delivered the signal, dereferences the null server; or the timeout has elapsed, and no
connection is taken. -/
theorem C47_waits (s : Server) (h : s.listening = true) (hp : s.pending = []) (t : Int) (ops : List (Op DSig Server)) (op : Op DSig Server) (r : Res (Option Nat))
    (h0 : (waitForNewConnection (some s)).out t s ops = none) (h1 : (waitForNewConnection (some s)).out t s (ops ++ [op]) = some r) :
    (DSig.newConnection ∈ heard ops ∧ op = .deliver ∧ (∀ sv, device (some s) ops = some sv → r = .ok sv.pending.head? ∧
        (waitForNewConnection (some s)).dev t s (ops ++ [op]) = some { sv with pending := sv.pending.tail }) ∧
        (device (some s) ops = none → r = .nullDeref)) ∨
    (r = .ok none ∧ 0 ≤ t ∧ t ≤ elapsed ops ∧ (waitForNewConnection (some s)).dev t s (ops ++ [op]) = device (some s) ops) := by
  rw [waitForNewConnection_wait s h hp] at h0 h1 ⊢
  obtain ⟨v, e1, e2, e3⟩ := returns _ _ t s ops op h0 h1
  cases v with
  | some u =>
    left
    obtain ⟨hop, ⟨y, hy, c, hc, e⟩, _⟩ := e3
    refine ⟨(own_ends .newConnection y).mp ⟨c, hc, by simp [e]⟩ ▸ hy, hop, ?_, ?_⟩
    · intro sv hsv
      rw [hsv] at e1 e2
      exact ⟨e1, e2⟩
    · intro hsv
      rw [hsv] at e1
      exact e1
  | none =>
    right
    exact ⟨e1, e3.1, e3.2.1, e2⟩

/-- In time, a new connection makes the call return once the event loop delivers it. -/
theorem C47_complete (s : Server) (h : s.listening = true) (hp : s.pending = []) (t : Int) (ops : List (Op DSig Server)) (hn : .newConnection ∈ heard ops) :
    ∃ n m, ((waitForNewConnection (some s)).out t s (ops ++ List.replicate n .handler ++ List.replicate m .deliver)).isSome = true := by
  rw [waitForNewConnection_wait s h hp]
  exact completes _ _ t s ops hn (hit_ne_none.mpr ((own_ends .newConnection _).mpr rfl))

/-- The timeout ends it with null. -/
theorem C47_timeout (s : Server) (h : s.listening = true) (hp : s.pending = []) (t : Int) (ops : List (Op DSig Server))
    (h0 : (waitForNewConnection (some s)).out t s ops = none) (ht : 0 ≤ t) (he : t ≤ elapsed ops) (hex : exists? ops = true) :
    (waitForNewConnection (some s)).out t s (ops ++ [.fire]) = some (.ok none) := by
  rw [waitForNewConnection_wait s h hp] at h0 ⊢
  exact (times_out (ownSignal .newConnection) _ t s ops h0 ht he (fun _ => hex)).1

/-- It returns once. -/
theorem C47_once (s : Server) (t : Int) (ops ops' : List (Op DSig Server)) (r : Res (Option Nat))
    (hr : (waitForNewConnection (some s)).out t s ops = some r) : (waitForNewConnection (some s)).out t s (ops ++ ops') = some r := by
  revert hr
  cases waitForNewConnection (some s) with
  | ret r' d => exact id
  | wait hh k => intro hr; show (run hh k t s _).out = _; rw [returned_stays hh k t s ops ops' hr]; exact hr

/-- Found: the server is destroyed after newConnection but before the result is delivered: the null server is dereferenced. -/
theorem C47_destroyed_null_deref : ∃ ops : List (Op DSig Server), (waitForNewConnection (some {})).out (-1) {} ops = some .nullDeref :=
  ⟨[.sig .newConnection false, .gone, .deliver], by decide⟩

/-- Found: the server is destroyed while the call waits and before any new connection: the call never returns, not even at its timeout. -/
theorem C47_destroyed_hangs (s : Server) (h : s.listening = true) (hp : s.pending = []) (t : Int) (ops : List (Op DSig Server))
    (h0 : (waitForNewConnection (some s)).out t s ops = none) (hg : exists? ops = false) (hn : .newConnection ∉ heard ops) (ops' : List (Op DSig Server)) :
    (waitForNewConnection (some s)).out t s (ops ++ ops') = none := by
  rw [waitForNewConnection_wait s h hp] at h0 ⊢
  refine own_gone_hangs (ownSignal .newConnection) _ t s ops rfl h0 hg ?_ ops'
  intro y hy c hc
  cases hr : c.react y with
  | none => rfl
  | some u => exact absurd (((own_ends .newConnection y).1 ⟨c, hc, by simp [hr]⟩) ▸ hy) hn

example : (waitForNewConnection (some {})).out 100 {} [.gone] = none ∧ exists? ([.gone] : List (Op DSig Server)) = false := by decide

example : (waitForNewConnection (some {})).out 100 {} [.dev { pending := [4] }, .sig .newConnection false, .dev { pending := [4, 5] }, .deliver] = some (.ok (some 4)) ∧
    (waitForNewConnection (some {})).dev 100 {} [.dev { pending := [4] }, .sig .newConnection false, .dev { pending := [4, 5] }, .deliver] = some { pending := [5] } := by decide

end QCoro.Wait
