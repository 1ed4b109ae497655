import Verif.Await.Classes
/-
Properties C40 (co_await QIODevice), C46 (co_await QNetworkReply), C48 (co_await QFuture), C49 (co_await QTimer),
C51 (co_await D-Bus calls), C59 (WaitOperationBase timers), C60 (WaitOperationBase).

In every statement `ops` is an arbitrary history after the `co_await` and `out` is the list of everything that happened to
the coroutine: `[]` still suspended, `[.got r]` resumed once with result `r`, anything with `.again`: resumed twice.
-/
namespace QCoro.Aw

/-! ### C40: `co_await device` -/

/-- The device is open, readable and has no data. -/
def IODev.empty (d : IODev) : Prop := d.isOpen = true ∧ d.readable = true ∧ d.data = []

theorem readOp_ready (d : IODev) : readOp.ready (some d) = false ↔ d.empty := by
  simp [readOp, IODev.empty, and_assoc]

/-- Data available, or the device is closed or cannot be read: the available data, at once, and never resumed again. -/
theorem C40_immediate (d : IODev) (h : ¬ d.empty) (gap ops : List (Op IOSig IODev)) :
    (run readOp (some d) gap ops).out = [.got (.ok (if d.isOpen && d.readable then d.data else []))] := by
  have hr : readOp.ready (some d) = true := by
    cases hh : readOp.ready (some d) with
    | true => rfl
    | false => exact absurd ((readOp_ready d).1 hh) h
  exact (ready_out gap hr ops).1

/-- Found: `co_await` of a null device calls `readAll` through the null pointer. -/
theorem C40_null_device (gap ops : List (Op IOSig IODev)) : (run readOp none gap ops).out = [.got .nullDeref] :=
  (ready_out gap rfl ops).1

/-- Otherwise it is resumed exactly by the first run of the event loop after the first readyRead/aboutToClose of the live
device, and gets the data available at that moment (undefined behaviour if the device was destroyed in between). -/
theorem C40_result (d : IODev) (h : d.empty) (ops : List (Op IOSig IODev)) (r : Res (List UInt8)) :
    (run readOp (some d) [] ops).out = [.got r] ↔ ∃ pre x mid post, ops = pre ++ .sig x :: mid ++ .loop :: post ∧
      (x = .readyRead ∨ x = .aboutToClose) ∧ Op.gone ∉ pre ∧ (∀ y, Op.sig y ∈ pre → y = .bytesWritten) ∧ Op.loop ∉ mid ∧
      r = match device (some d) (pre ++ .sig x :: mid) with
          | some d' => .ok (if d'.isOpen && d'.readable then d'.data else [])
          | none => .nullDeref := by
  rw [deferred_iff wf_readOp rfl ((readOp_ready d).2 h) rfl]
  simp only [device_nil]
  constructor
  · rintro ⟨pre, op, mid, post, e, hf, hm, hb⟩
    obtain ⟨x, rfl, h1, h2, h3⟩ := (first_sig rfl d pre op).1 hf
    refine ⟨pre, x, mid, post, e, ?_, h2, ?_, hm, ?_⟩
    · cases x <;> simp_all [readOp]
    · intro y hy; have := h3 y hy; cases y <;> simp_all [readOp]
    · rw [hb]; simp only [readOp]; split <;> simp_all [IODev.readAll]
  · rintro ⟨pre, x, mid, post, e, h1, h2, h3, hm, hb⟩
    refine ⟨pre, .sig x, mid, post, e, (first_sig rfl d pre _).2 ⟨x, rfl, ?_, h2, ?_⟩, hm, ?_⟩
    · rcases h1 with rfl | rfl <;> rfl
    · intro y hy; have := h3 y hy; subst this; rfl
    · rw [hb]; simp only [readOp]; split <;> simp_all [IODev.readAll]

/-- Exactly once: whatever the device and the environment do, never a second resumption. -/
theorem C40_once (d : Option IODev) (gap ops : List (Op IOSig IODev)) :
    (run readOp d gap ops).out = [] ∨ ∃ r, (run readOp d gap ops).out = [.got r] := out_le_one wf_readOp d gap ops

/-- What it does to the device: the bytes it returns are removed, nothing else is touched; before and after it leaves the device alone. -/
theorem C40_takes (d : IODev) (ops : List (Op IOSig IODev)) (op : Op IOSig IODev) :
    (d.empty → (run readOp (some d) [] ops).out = [] → (run readOp (some d) [] ops).dev = device (some d) ops ∧
      (∀ b d', device (some d) ops = some d' → (run readOp (some d) [] (ops ++ [op])).out = [.got (.ok b)] →
        ∃ rest, d'.data = b ++ rest ∧ (d'.isOpen = true ∧ d'.readable = true → rest = []) ∧
          (run readOp (some d) [] (ops ++ [op])).dev = some { d' with data := rest })) ∧
    (∀ b, ¬ d.empty → (run readOp (some d) [] []).out = [.got (.ok b)] → ∃ rest, d.data = b ++ rest ∧
      (d.isOpen = true ∧ d.readable = true → rest = []) ∧ (run readOp (some d) [] []).dev = some { d with data := rest }) ∧
    (∀ r, (run readOp (some d) [] ops).out = [.got r] → (run readOp (some d) [] (ops ++ [op])).dev = device (run readOp (some d) [] ops).dev [op]) := by
  have key : ∀ (d' : IODev) (b : List UInt8), Out.got (readOp.result false (some d')).1 = Out.got (.ok b) →
      ∃ rest, d'.data = b ++ rest ∧ (d'.isOpen = true ∧ d'.readable = true → rest = []) ∧ (readOp.result false (some d')).2 = some { d' with data := rest } := by
    intro d' b hb
    have hb : (if d'.isOpen && d'.readable then d'.data else []) = b := by simpa [readOp, IODev.readAll] using hb
    refine ⟨if d'.isOpen && d'.readable then [] else d'.data, ?_, ?_, ?_⟩
    · rw [← hb]; split <;> simp
    · rintro ⟨h1, h2⟩; simp [h1, h2]
    · simp [readOp, IODev.readAll]
  refine ⟨fun he ho => ?_, fun b he hb => ?_, fun r hr => ?_⟩
  · have hp := ph_run (gap := []) wf_readOp ((readOp_ready d).2 he) rfl ops
    rw [device_nil] at hp
    rw [run_snoc]
    generalize run readOp (some d) [] ops = s at *
    have facts : s.dev = device (some d) ops ∧ s.timedOut = false ∧ s.timer = none := by
      cases hp with
      | armed _ _ _ hd _ ht hto => exact ⟨hd, hto, by simpa [readOp] using ht⟩
      | posted pre o mid he' hf h3 h4 h5 h6 h7 h8 =>
        refine ⟨h6, ?_, h8⟩
        rw [h7]
        cases o <;> try rfl
        obtain ⟨_, ht⟩ := hf
        simp [Trigger, readOp] at ht
      | doneD => simp_all
      | done => simp_all
    obtain ⟨f1, f2, f3⟩ := facts
    refine ⟨f1, fun b d' hd' hb => ?_⟩
    have hop : op = .loop := by
      apply Classical.byContradiction
      intro h
      rw [only_in_loop rfl _ _ h, ho] at hb
      simp at hb
    subst hop
    unfold step at hb ⊢
    dsimp only at hb ⊢
    split at hb
    · rw [ho] at hb; simp at hb
    · rw [if_neg (by assumption)]
      simp only [State.resume, ho, f2, f1, hd'] at hb ⊢
      exact key d' b (by simpa using hb)
  · have hr : readOp.ready (some d) = true := by
      cases hh : readOp.ready (some d) with
      | true => rfl
      | false => exact absurd ((readOp_ready d).1 hh) he
    simp only [run, start, hr, List.foldl_nil, if_true, State.resume] at hb ⊢
    exact key d b (by simpa using hb)
  · rw [run_snoc]
    have hone := out_le_one wf_readOp (some d) [] (ops ++ [op])
    rw [run_snoc] at hone
    generalize run readOp (some d) [] ops = s at *
    have hres : ∀ s' : State IODev (Res (List UInt8)), s'.out = s.out → (s'.resume readOp).dev = s'.dev := by
      intro s' hs'; unfold State.resume; rw [hs', hr]
    cases op with
    | sig x =>
      simp only [step, device_one]; split
      · simp only [State.slot, readOp]; simp
      · rfl
    | dev d' => simp [step, device_one]
    | gone => simp [step, device_one]
    | loop => simp only [step, device_one]; split
              · rfl
              · exact hres _ rfl
    | time n => simp [step, device_one]
    | fire =>
      simp only [step, device_one]; split
      · simp only [State.slot, readOp]; simp
      · rfl

/-- Never synchronously within an emission: only the event loop changes what the coroutine saw. -/
theorem C40_only_from_event_loop (d : Option IODev) (gap ops : List (Op IOSig IODev)) (op : Op IOSig IODev) (h : op ≠ .loop) :
    (run readOp d gap (ops ++ [op])).out = (run readOp d gap ops).out := by
  rw [run_snoc]; exact only_in_loop rfl _ _ h

/-- It does complete: a signal of the live device and, some time later, a run of the event loop. -/
theorem C40_complete (d : IODev) (h : d.empty) (pre q : List (Op IOSig IODev)) (x : IOSig) (hx : x = .readyRead ∨ x = .aboutToClose)
    (hg : Op.gone ∉ pre) (hl : Op.loop ∈ q) : ∃ r, (run readOp (some d) [] (pre ++ .sig x :: q)).out = [.got r] := by
  refine deferred_complete wf_readOp ((readOp_ready d).2 h) rfl ⟨?_, ?_⟩ hl
  · rcases hx with rfl | rfl <;> rfl
  · rw [device_nil, device_isSome]; exact hg

/-- … and until the first such signal of the live device it stays suspended; if the device is destroyed before, for ever. -/
theorem C40_pending (d : IODev) (h : d.empty) (ops : List (Op IOSig IODev))
    (hq : ∀ p y q, ops = p ++ .sig y :: q → y ≠ .bytesWritten → Op.gone ∈ p) : (run readOp (some d) [] ops).out = [] :=
  untriggered_out wf_readOp ((readOp_ready d).2 h) rfl ops
    (untriggered_sig rfl d ops (fun p y q e ht => hq p y q e (by rintro rfl; cases ht)))

/-- Found: the device destroyed between the signal and the resumption: null pointer dereference. -/
theorem C40_destroyed_null_deref :
    (run readOp (some {}) [] [.dev { data := [1, 2] }, .sig .readyRead, .gone, .loop]).out = [.got .nullDeref] := by decide

example : (run readOp (some {}) [] [.sig .bytesWritten, .dev { data := [1] }, .sig .readyRead, .dev { data := [1, 2] }, .sig .readyRead,
    .sig .aboutToClose, .loop, .loop, .sig .readyRead, .loop]).out = [.got (.ok [1, 2])] := by decide

/-! ### C46: `co_await reply` -/

/-- Finished already, or no reply: continues at once. -/
theorem C46_await_immediate (d : Option Bool) (h : d ≠ some false) (gap ops : List (Op ReplySig Bool)) :
    (run replyOp d gap ops).out = [.got d] := by
  refine (ready_out gap ?_ ops).1
  cases d with
  | none => rfl
  | some f => cases f <;> simp_all [replyOp]

/-- Otherwise it continues exactly at the first run of the event loop after the first `finished` of the reply, with the reply
(nullptr if the reply was destroyed in between). -/
theorem C46_await_result (ops : List (Op ReplySig Bool)) (r : Option Bool) :
    (run replyOp (some false) [] ops).out = [.got r] ↔ ∃ pre mid post, ops = pre ++ .sig .finished :: mid ++ .loop :: post ∧
      Op.gone ∉ pre ∧ Op.sig .finished ∉ pre ∧ Op.loop ∉ mid ∧ r = device (some false) (pre ++ .sig .finished :: mid) := by
  rw [deferred_iff wf_replyOp rfl rfl rfl]
  simp only [device_nil]
  constructor
  · rintro ⟨pre, op, mid, post, e, hf, hm, hb⟩
    obtain ⟨x, rfl, h1, h2, h3⟩ := (first_sig rfl false pre op).1 hf
    have hx : x = .finished := by cases x <;> simp_all [replyOp]
    subst hx
    exact ⟨pre, mid, post, e, h2, (fun hm => by cases h3 _ hm), hm, hb⟩
  · rintro ⟨pre, mid, post, e, h2, h3, hm, hb⟩
    refine ⟨pre, .sig .finished, mid, post, e, (first_sig rfl false pre _).2 ⟨.finished, rfl, rfl, h2, ?_⟩, hm, hb⟩
    intro y hy; cases y <;> simp_all [replyOp]

/-- Exactly once, also when the reply lives in another thread, and only from the event loop of the reply's thread. -/
theorem C46_await_once (d : Option Bool) (gap ops : List (Op ReplySig Bool)) :
    (run replyOp d gap ops).out = [] ∨ ∃ r, (run replyOp d gap ops).out = [.got r] := out_le_one wf_replyOp d gap ops

theorem C46_await_only_from_event_loop (d : Option Bool) (gap ops : List (Op ReplySig Bool)) (op : Op ReplySig Bool) (h : op ≠ .loop) :
    (run replyOp d gap (ops ++ [op])).out = (run replyOp d gap ops).out := by
  rw [run_snoc]; exact only_in_loop rfl _ _ h

theorem C46_await_complete (pre q : List (Op ReplySig Bool)) (hg : Op.gone ∉ pre) (hl : Op.loop ∈ q) :
    ∃ r, (run replyOp (some false) [] (pre ++ .sig .finished :: q)).out = [.got r] :=
  deferred_complete wf_replyOp rfl rfl ⟨rfl, (device_isSome false pre).2 hg⟩ hl

/-- Found: a reply destroyed before it finished never resumes the coroutine. -/
theorem C46_await_destroyed_hangs (pre ops : List (Op ReplySig Bool)) (h : Op.sig .finished ∉ pre) :
    (run replyOp (some false) [] (pre ++ .gone :: ops)).out = [] := by
  refine untriggered_out wf_replyOp rfl rfl _ (untriggered_sig rfl false _ ?_)
  intro p y q e hy
  have hy : y = .finished := by cases y <;> simp_all [replyOp]
  subst hy
  rcases List.append_eq_append_iff.1 e with ⟨l, h1, h2⟩ | ⟨l, h1, h2⟩
  · cases l with
    | nil => simp at h2
    | cons x l => simp at h2; subst h1; simp [h2.1]
  · cases l with
    | nil => simp at h2
    | cons x l => simp at h2; exact absurd (by simp [h1, h2.1]) h

/-- Found: a reply of another thread that finishes between the check and the subscription: the coroutine never continues
(`finished` is emitted once). -/
theorem C46_await_other_thread_lost (gap ops : List (Op ReplySig Bool)) (hg : Op.gone ∉ gap)
    (h : Op.sig .finished ∉ ops) : (run replyOp (some false) gap ops).out = [] := by
  have hd := (device_isSome false gap).2 hg
  obtain ⟨d, hd⟩ := Option.isSome_iff_exists.1 hd
  refine untriggered_out wf_replyOp rfl (by simp [replyOp, hd]) ops ?_
  rw [hd]
  refine untriggered_sig rfl d ops ?_
  rintro p y q rfl hy
  have hy : y = .finished := by cases y <;> simp_all [replyOp]
  subst hy
  simp at h

/-- … and one destroyed in that window: it continues at once, with a null pointer. -/
theorem C46_await_other_thread_destroyed (gap ops : List (Op ReplySig Bool)) (hg : device (some false) gap = none) :
    (run replyOp (some false) gap ops).out = [.got none] := by
  have := (skip_out (a := replyOp) (d0 := some false) gap rfl (by simp [replyOp, hg]) ops).1
  simpa [replyOp, hg] using this

example : (run replyOp (some false) [] [.sig .readyRead, .dev true, .sig .finished, .sig .finished, .loop, .loop, .sig .finished, .loop]).out
    = [.got (some true)] := by decide
example : (run replyOp (some false) [.dev true, .sig .finished] [.loop, .loop]).out = [] := by decide
example : (run replyOp (some false) [] [.dev true, .sig .finished, .gone, .loop]).out = [.got none] := by decide

/-! ### C60, C59: WaitOperationBase -/
section
variable {σ δ : Type}

/-- The operation completes: the (live) object emits a signal the operation waits for. -/
def Completion (trig : σ → Bool) (pre : List (Op σ δ)) (op : Op σ δ) : Prop := ∃ x, op = .sig x ∧ trig x = true ∧ Op.gone ∉ pre
/-- The timeout: `t ≥ 0` milliseconds have passed, and the event loop looks at its timers. -/
def Expiry (t : Int) (pre : List (Op σ δ)) (op : Op σ δ) : Prop := op = .fire ∧ 0 ≤ t ∧ t ≤ elapsed pre
/-- Neither happened so far. -/
def Neither (trig : σ → Bool) (t : Int) (ops : List (Op σ δ)) : Prop :=
  ∀ p op q, ops = p ++ op :: q → ¬ Completion trig p op ∧ ¬ Expiry t p op

theorem trigger_iff {β : Type} (a : Awaiter σ δ β) (t : Int) (ht : a.timeout = if t > -1 then some t.toNat else none) (d : δ) (pre : List (Op σ δ)) (op : Op σ δ) :
    Trigger a (some d) pre op ↔ Completion a.trig pre op ∨ Expiry t pre op := by
  cases op with
  | sig x => simp [Trigger, Completion, Expiry, device_isSome]
  | fire =>
    simp only [Trigger, Completion, Expiry, ht]
    by_cases h : t > -1
    · simp only [if_pos h]
      constructor
      · rintro ⟨u, e, hu⟩; cases e; right; refine ⟨trivial, by omega, by omega⟩
      · rintro (⟨x, e, _⟩ | ⟨_, h1, h2⟩)
        · cases e
        · exact ⟨_, rfl, by omega⟩
    · simp only [if_neg h]
      constructor
      · rintro ⟨u, e, _⟩; cases e
      · rintro (⟨x, e, _⟩ | ⟨_, h1, _⟩)
        · cases e
        · omega
  | _ => simp [Trigger, Completion, Expiry]

theorem untriggered_iff {β : Type} (a : Awaiter σ δ β) (t : Int) (ht : a.timeout = if t > -1 then some t.toNat else none) (d : δ) (ops : List (Op σ δ)) :
    Untriggered a (some d) ops ↔ Neither a.trig t ops := by
  constructor
  · intro h p op q e
    have := h p op q e
    rw [trigger_iff a t ht] at this
    exact not_or.1 this
  · intro h p op q e
    rw [trigger_iff a t ht]
    exact not_or.2 (h p op q e)

/-- The result, exactly: true iff the completion came first, false iff the timeout did; given from the event loop. -/
theorem C60_result (ready : Option δ → Bool) (trig : σ → Bool) (t : Int) (d : δ) (hr : ready (some d) = false) (ops : List (Op σ δ)) (b : Bool) :
    (run (waitOp ready trig t) (some d) [] ops).out = [.got b] ↔ ∃ pre op mid post, ops = pre ++ op :: mid ++ .loop :: post ∧
      Op.loop ∉ mid ∧ Neither trig t pre ∧ (b = true ∧ Completion trig pre op ∨ b = false ∧ Expiry t pre op) := by
  rw [deferred_iff (wf_waitOp ready trig t) rfl hr rfl]
  simp only [device_nil]
  constructor
  · rintro ⟨pre, op, mid, post, e, hf, hm, hb⟩
    refine ⟨pre, op, mid, post, e, hm, (untriggered_iff _ t rfl d pre).1 hf.1, ?_⟩
    rcases (trigger_iff _ t rfl d pre op).1 hf.2 with h | h
    · left; refine ⟨?_, h⟩; obtain ⟨x, rfl, _⟩ := h; rw [hb]; rfl
    · right; refine ⟨?_, h⟩; obtain ⟨rfl, _⟩ := h; rw [hb]; rfl
  · rintro ⟨pre, op, mid, post, e, hm, h1, h2⟩
    refine ⟨pre, op, mid, post, e, ⟨(untriggered_iff _ t rfl d pre).2 h1, (trigger_iff _ t rfl d pre op).2 (h2.imp And.right And.right)⟩, hm, ?_⟩
    rcases h2 with ⟨rfl, x, rfl, _⟩ | ⟨rfl, rfl, _⟩ <;> rfl

/-- Exactly one of the two resumes the coroutine, once. -/
theorem C60_once (ready : Option δ → Bool) (trig : σ → Bool) (t : Int) (d : Option δ) (gap ops : List (Op σ δ)) :
    (run (waitOp ready trig t) d gap ops).out = [] ∨ ∃ b, (run (waitOp ready trig t) d gap ops).out = [.got b] :=
  out_le_one (wf_waitOp ready trig t) d gap ops

theorem C60_only_from_event_loop (ready : Option δ → Bool) (trig : σ → Bool) (t : Int) (d : Option δ) (gap ops : List (Op σ δ)) (op : Op σ δ)
    (h : op ≠ .loop) : (run (waitOp ready trig t) d gap (ops ++ [op])).out = (run (waitOp ready trig t) d gap ops).out := by
  rw [run_snoc]; exact only_in_loop rfl _ _ h

theorem C60_complete (ready : Option δ → Bool) (trig : σ → Bool) (t : Int) (d : δ) (hr : ready (some d) = false) (pre q : List (Op σ δ)) (op : Op σ δ)
    (h : Completion trig pre op ∨ Expiry t pre op) (hl : Op.loop ∈ q) : ∃ b, (run (waitOp ready trig t) (some d) [] (pre ++ op :: q)).out = [.got b] :=
  deferred_complete (wf_waitOp ready trig t) hr rfl ((trigger_iff _ t rfl d pre op).2 h) hl

/-- Not suspended at all if ready: true. -/
theorem C60_ready (ready : Option δ → Bool) (trig : σ → Bool) (t : Int) (d : Option δ) (hr : ready d = true) (gap ops : List (Op σ δ)) :
    (run (waitOp ready trig t) d gap ops).out = [.got true] := (ready_out gap hr ops).1

/-- A negative timeout: no timer, the operation never reports a timeout however long it lasts; a timeout `t ≥ 0` never
ends the wait before `t` milliseconds have passed, and ends it when the event loop looks after that. -/
theorem C59_waitOperation_timer (ready : Option δ → Bool) (trig : σ → Bool) (t : Int) (d : δ) (hr : ready (some d) = false) (ops : List (Op σ δ)) :
    ((run (waitOp ready trig t) (some d) [] ops).out = [.got false] → 0 ≤ t ∧ t ≤ elapsed ops) ∧
    (0 ≤ t → t ≤ elapsed ops → ∃ b, (run (waitOp ready trig t) (some d) [] (ops ++ [.fire, .loop])).out = [.got b]) := by
  constructor
  · intro h
    obtain ⟨pre, op, mid, post, rfl, _, _, h⟩ := (C60_result ready trig t d hr ops false).1 h
    have mono : ∀ (l l' : List (Op σ δ)), elapsed (l ++ l') = elapsed l + elapsed l' := by
      intro l l'; induction l with
      | nil => simp [elapsed]
      | cons o l ih => cases o <;> simp [elapsed, ih]; omega
    rcases h with h | ⟨_, _, h1, h2⟩
    · cases h.1
    · refine ⟨h1, ?_⟩; rw [List.append_assoc, mono]; omega
  · intro h1 h2
    exact C60_complete ready trig t d hr ops [.loop] .fire (.inr ⟨rfl, h1, h2⟩) (by simp)

end

/-- The server operation built on it: a pending connection at once … -/
theorem C60_server_immediate (t : Int) (c : Nat) (l : List Nat) (gap ops : List (Op ServerSig (List Nat))) :
    (run (connOp t) (some (c :: l)) gap ops).out = [.got (.ok (some c))] := (ready_out gap rfl ops).1

/-- … otherwise the oldest connection pending when the event loop resumes the coroutine after the first newConnection, or
nullptr after the timeout, whichever is first (undefined behaviour if the server was destroyed in between). -/
theorem C60_server_result (t : Int) (ops : List (Op ServerSig (List Nat))) (r : Res (Option Nat)) :
    (run (connOp t) (some []) [] ops).out = [.got r] ↔ ∃ pre op mid post, ops = pre ++ op :: mid ++ .loop :: post ∧ Op.loop ∉ mid ∧
      Neither (fun x => decide (x = ServerSig.newConnection)) t pre ∧
      (op = .sig .newConnection ∧ Op.gone ∉ pre ∧ r = (match device (some []) (pre ++ op :: mid) with | some l => .ok l.head? | none => .nullDeref) ∨
       Expiry t pre op ∧ r = .ok none) := by
  have htrig : (connOp t).trig = fun x => decide (x = ServerSig.newConnection) := by funext x; cases x <;> rfl
  rw [deferred_iff (wf_connOp t) rfl rfl rfl]
  simp only [device_nil]
  constructor
  · rintro ⟨pre, op, mid, post, e, hf, hm, hb⟩
    refine ⟨pre, op, mid, post, e, hm, htrig ▸ (untriggered_iff (connOp t) t rfl [] pre).1 hf.1, ?_⟩
    rcases (trigger_iff (connOp t) t rfl [] pre op).1 hf.2 with h | h
    · left
      obtain ⟨x, rfl, h1, h2⟩ := h
      have : x = .newConnection := by rw [htrig] at h1; simpa using h1
      subst this
      refine ⟨rfl, h2, ?_⟩
      rw [hb]; simp only [connOp, isFire]; simp; split <;> simp_all
    · right; refine ⟨h, ?_⟩; obtain ⟨rfl, _⟩ := h; rw [hb]; rfl
  · rintro ⟨pre, op, mid, post, e, hm, h1, h2⟩
    refine ⟨pre, op, mid, post, e, ⟨(untriggered_iff (connOp t) t rfl [] pre).2 (htrig ▸ h1), (trigger_iff (connOp t) t rfl [] pre op).2 ?_⟩, hm, ?_⟩
    · rcases h2 with ⟨rfl, h, _⟩ | ⟨h, _⟩
      · left; exact ⟨_, rfl, rfl, h⟩
      · exact .inr h
    · rcases h2 with ⟨rfl, _, rfl⟩ | ⟨⟨rfl, _⟩, rfl⟩
      · simp only [connOp, isFire]; simp; split <;> simp_all
      · rfl

theorem C60_server_once (t : Int) (d : Option (List Nat)) (gap ops : List (Op ServerSig (List Nat))) :
    (run (connOp t) d gap ops).out = [] ∨ ∃ r, (run (connOp t) d gap ops).out = [.got r] := out_le_one (wf_connOp t) d gap ops

/-- Found: a null server is dereferenced. -/
theorem C60_server_null (t : Int) (gap ops : List (Op ServerSig (List Nat))) : (run (connOp t) none gap ops).out = [.got .nullDeref] :=
  (ready_out gap rfl ops).1

example : (run (connOp 100) (some []) [] [.time 99, .fire, .dev [7], .sig .newConnection, .time 5, .fire, .loop, .loop, .sig .newConnection, .loop]).out
    = [.got (.ok (some 7))] := by decide
example : (run (connOp 100) (some []) [] [.time 100, .fire, .dev [7], .sig .newConnection, .loop, .loop]).out = [.got (.ok none)] := by decide
example : (run (connOp (-1)) (some []) [] [.time 100000, .fire, .loop]).out = [] := by decide
example : (run (connOp 5) (some []) [] [.dev [7], .sig .newConnection, .gone, .loop]).out = [.got .nullDeref] := by decide
example : (run (waitOp (σ := ServerSig) (fun _ : Option Nat => false) (· = .newConnection) 10) (some 0) [] [.time 10, .fire, .sig .newConnection, .loop, .loop]).out
    = [.got false] := by decide

/-! ### C49: `co_await timer` -/

/-- Not active (or null): does not suspend. -/
theorem C49_immediate (d : Option Bool) (h : d ≠ some true) (gap ops : List (Op TimerSig Bool)) : (run timerOp d gap ops).out = [.got ()] := by
  refine (ready_out gap ?_ ops).1
  cases d with
  | none => rfl
  | some f => cases f <;> simp_all [timerOp]

/-- Active: resumed exactly when the first `timeout` of the live timer is emitted, within the emission. -/
theorem C49_result (ops : List (Op TimerSig Bool)) :
    (run timerOp (some true) [] ops).out = [.got ()] ↔ ∃ pre post, ops = pre ++ .sig .timeout :: post ∧ Op.gone ∉ pre := by
  constructor
  · intro h
    obtain ⟨pre, op, post, e, hf, -⟩ := (direct_iff wf_timerOp rfl rfl rfl ops ()).1 h
    obtain ⟨x, rfl, -, h2, -⟩ := (first_sig rfl true pre op).1 hf
    exact ⟨pre, post, e, h2⟩
  · rintro ⟨pre, post, rfl, h⟩
    obtain ⟨b, hb⟩ := direct_complete (a := timerOp) (d0 := some true) (gap := []) (q := post) wf_timerOp rfl rfl rfl (p := pre) (op := .sig .timeout)
      ⟨rfl, (device_isSome true pre).2 h⟩
    exact hb

/-- Exactly once: later timeouts do not resume again. -/
theorem C49_once (d : Option Bool) (gap ops : List (Op TimerSig Bool)) :
    (run timerOp d gap ops).out = [] ∨ (run timerOp d gap ops).out = [.got ()] := by
  rcases out_le_one wf_timerOp d gap ops with h | ⟨b, h⟩
  · exact .inl h
  · exact .inr h

/-- Found: a timer that is stopped or destroyed while awaited never resumes the coroutine (stopping emits nothing). -/
theorem C49_stopped_hangs (ops : List (Op TimerSig Bool)) (h : Op.sig .timeout ∉ ops) : (run timerOp (some true) [] ops).out = [] := by
  rcases C49_once (some true) [] ops with h' | h'
  · exact h'
  · obtain ⟨pre, post, rfl, _⟩ := (C49_result ops).1 h'
    simp at h

example : (run timerOp (some true) [] [.time 5, .loop, .sig .timeout, .dev false, .sig .timeout, .loop]).out = [.got ()] := by decide
example : (run timerOp (some true) [] [.dev false, .time 1000, .loop, .gone, .sig .timeout]).out = [] := by decide

/-! ### C48: `co_await future` -/
section
variable {ν : Type}

/-- Qt: the watcher emits `finished` only when the future is finished, and the awaiter's copy of the future is not destroyed. -/
def WatcherOK (f : Fut ν) (ops : List (Op FutSig (Fut ν))) : Prop :=
  Op.gone ∉ ops ∧ ∀ p q, ops = p ++ .sig .finished :: q → ∃ f', device (some f) p = some f' ∧ f'.finished = true

/-- Finished or canceled: does not suspend, the result is what `QFuture::result()` gives now. -/
theorem C48_immediate (f : Fut ν) (h : f.finished = true ∨ f.canceled = true) (gap ops : List (Op FutSig (Fut ν))) :
    (run (futOp ν) (some f) gap ops).out = [.got (some f.result)] :=
  (ready_out gap (by simpa [futOp] using h) ops).1

/-- Otherwise: resumed exactly by the watcher's first `finished`; the future has finished by then; the result is its value or
its exception. -/
theorem C48_result (f : Fut ν) (h : f.finished = false ∧ f.canceled = false) (ops : List (Op FutSig (Fut ν))) (hw : WatcherOK f ops) (r : Option (FutRes ν)) :
    (run (futOp ν) (some f) [] ops).out = [.got r] ↔ ∃ pre post f', ops = pre ++ .sig .finished :: post ∧ Op.sig .finished ∉ pre ∧
      device (some f) pre = some f' ∧ f'.finished = true ∧ r = some f'.result := by
  have hr : (futOp ν).ready (some f) = false := by simp [futOp, h]
  rw [direct_iff (wf_futOp ν) rfl hr rfl]
  simp only [device_nil]
  constructor
  · rintro ⟨pre, op, post, e, hf, hb⟩
    obtain ⟨x, rfl, h1, h2, h3⟩ := (first_sig rfl f pre op).1 hf
    obtain ⟨f', e1, e2⟩ := hw.2 pre post e
    refine ⟨pre, post, f', e, (fun hm => by cases h3 _ hm), e1, e2, ?_⟩
    rw [hb, e1]; rfl
  · rintro ⟨pre, post, f', rfl, h1, h2, h3, rfl⟩
    refine ⟨pre, .sig .finished, post, rfl, (first_sig rfl f pre _).2 ⟨_, rfl, rfl, ?_, ?_⟩, ?_⟩
    · intro hg; exact hw.1 (by simp [hg])
    · intro y hy; cases y; exact absurd hy h1
    · rw [h2]; rfl

/-- A future that finishes with a value or an exception: the await returns the value or throws the exception; it neither
blocks nor lacks a result. -/
theorem C48_value (f : Fut ν) : (∀ v, f.content = .value v → f.result = .value v) ∧ (∀ e, f.content = .exception e → f.result = .throws e) := by
  constructor <;> intro v h <;> simp [Fut.result, h]

/-- Exactly once, and no wake-up is lost when the future finishes on another thread between check and subscription (`gap`):
the watcher still emits. -/
theorem C48_once (d : Option (Fut ν)) (gap ops : List (Op FutSig (Fut ν))) :
    (run (futOp ν) d gap ops).out = [] ∨ ∃ r, (run (futOp ν) d gap ops).out = [.got r] := out_le_one (wf_futOp ν) d gap ops

theorem C48_complete (f : Fut ν) (gap pre post : List (Op FutSig (Fut ν))) (hg : Op.gone ∉ gap) (hp : Op.gone ∉ pre) :
    ∃ r, (run (futOp ν) (some f) gap (pre ++ .sig .finished :: post)).out = [.got r] := by
  cases hr : (futOp ν).ready (some f) with
  | true => exact ⟨_, (ready_out gap hr _).1⟩
  | false =>
    obtain ⟨d, hd⟩ := Option.isSome_iff_exists.1 ((device_isSome f gap).2 hg)
    refine direct_complete (wf_futOp ν) rfl hr rfl ⟨rfl, ?_⟩
    rw [hd, device_isSome]; exact hp

/-- Not before: while the watcher has not emitted, the coroutine stays suspended. -/
theorem C48_pending (f : Fut ν) (h : f.finished = false ∧ f.canceled = false) (ops : List (Op FutSig (Fut ν))) (hn : Op.sig .finished ∉ ops) :
    (run (futOp ν) (some f) [] ops).out = [] := by
  refine untriggered_out (wf_futOp ν) (by simp [futOp, h]) rfl ops (untriggered_sig rfl f ops ?_)
  rintro p y q rfl -; cases y; simp at hn

/-- Found: a canceled future that is still running does not suspend; `result()` blocks the thread until it finishes; and once
a canceled future has finished without result, `result()` has nothing to return. -/
theorem C48_canceled_blocks (gap ops : List (Op FutSig (Fut ν))) :
    (run (futOp ν) (some { canceled := true }) gap ops).out = [.got (some .blocks)] ∧
    (run (futOp ν) (some { canceled := true, finished := true }) gap ops).out = [.got (some .noResult)] := by
  constructor
  · exact C48_immediate _ (.inr rfl) gap ops
  · exact C48_immediate _ (.inr rfl) gap ops

/-- The same for a future that is canceled while awaited: when it finishes without result, undefined behaviour. -/
theorem C48_canceled_later (f : Fut ν) (h : f.finished = false ∧ f.canceled = false) :
    (run (futOp ν) (some f) [] [.dev { canceled := true }, .dev { canceled := true, finished := true }, .sig .finished]).out = [.got (some .noResult)] := by
  obtain ⟨h1, h2⟩ := h
  simp [run, start, futOp, h1, h2, step, device, State.slot, State.resume, Fut.result]

/-- `QFuture<void>`: never lacks a result; blocks only if canceled before it has finished. -/
theorem C48_void (f : Fut Unit) (gap ops : List (Op FutSig (Fut Unit))) :
    (f.finished = true ∨ f.canceled = true → (run futVoidOp (some f) gap ops).out = [.got (some f.waitForFinished)]) ∧
    (f.finished = true → f.waitForFinished ≠ .blocks) ∧ f.waitForFinished ≠ .noResult := by
  refine ⟨fun h => (ready_out gap (by simpa [futVoidOp] using h) ops).1, ?_, ?_⟩
  · intro h; simp only [Fut.waitForFinished]; split <;> simp [h]
  · simp only [Fut.waitForFinished]; split <;> (try split) <;> simp

theorem C48_void_result (f : Fut Unit) (h : f.finished = false ∧ f.canceled = false) (ops : List (Op FutSig (Fut Unit))) (hw : WatcherOK f ops)
    (r : Option (FutRes Unit)) :
    (run futVoidOp (some f) [] ops).out = [.got r] ↔ ∃ pre post f', ops = pre ++ .sig .finished :: post ∧ Op.sig .finished ∉ pre ∧
      device (some f) pre = some f' ∧ f'.finished = true ∧ r = some f'.waitForFinished := by
  have hr : futVoidOp.ready (some f) = false := by simp [futVoidOp, h]
  rw [direct_iff wf_futVoidOp rfl hr rfl]
  simp only [device_nil]
  constructor
  · rintro ⟨pre, op, post, e, hf, hb⟩
    obtain ⟨x, rfl, h1, h2, h3⟩ := (first_sig rfl f pre op).1 hf
    obtain ⟨f', e1, e2⟩ := hw.2 pre post e
    refine ⟨pre, post, f', e, (fun hm => by cases h3 _ hm), e1, e2, ?_⟩
    rw [hb, e1]; rfl
  · rintro ⟨pre, post, f', rfl, h1, h2, h3, rfl⟩
    refine ⟨pre, .sig .finished, post, rfl, (first_sig rfl f pre _).2 ⟨_, rfl, rfl, ?_, ?_⟩, ?_⟩
    · intro hg; exact hw.1 (by simp [hg])
    · intro y hy; cases y; exact absurd hy h1
    · rw [h2]; rfl

/-- takeResult(): the same result, and the future is left without one (an exception is rethrown and stays). -/
theorem C48_take (f : Fut ν) (h : f.finished = false ∧ f.canceled = false) (pre : List (Op FutSig (Fut ν))) (h1 : Op.gone ∉ pre)
    (h2 : Op.sig .finished ∉ pre) (f' : Fut ν) (h3 : device (some f) pre = some f') :
    (run (futTakeOp ν) (some f) [] (pre ++ [.sig .finished])).out = [.got (some f'.result)] ∧
    ∃ g, (run (futTakeOp ν) (some f) [] (pre ++ [.sig .finished])).dev = some g ∧ (∀ e, f'.content = .exception e → g = f') ∧
      ((∀ e, f'.content ≠ .exception e) → g = { f' with content := .nothing }) := by
  have hr : (futTakeOp ν).ready (some f) = false := by simp [futTakeOp, h]
  have hu : Untriggered (futTakeOp ν) (some f) pre := by
    refine untriggered_sig rfl f pre ?_
    rintro p y q rfl -; cases y; simp at h2
  rw [run_snoc]
  cases ph_run (d0 := some f) (gap := []) (wf_futTakeOp ν) hr rfl pre with
  | armed _ ho hp hd hc ht hto =>
    rw [device_nil, h3] at hd hc
    generalize run (futTakeOp ν) (some f) [] pre = s at *
    refine ⟨by simp [step, hd, hc, futTakeOp, State.slot, State.resume, ho, hto], f'.take, by simp [step, hd, hc, futTakeOp, State.slot, State.resume, ho, hto], ?_, ?_⟩
    · intro e he; simp [Fut.take, he]
    · intro he; unfold Fut.take; split
      · rename_i e h; exact absurd h (he e)
      · rfl
  | posted _ _ _ _ _ hdef => cases hdef
  | doneD _ _ _ _ _ _ hdef => cases hdef
  | done p o q e hf => exact absurd hf.2 (hu p o q e)

example : (run (futOp Nat) (some {}) [] [.time 3, .dev { finished := true, content := .value 42 }, .sig .finished, .sig .finished, .loop]).out
    = [.got (some (.value 42))] := by decide
example : WatcherOK ({} : Fut Nat) [.time 3, .dev { finished := true, content := .value 42 }, .sig .finished] := by
  refine ⟨by decide, ?_⟩
  intro p q e
  match p, e with
  | [], e => cases e
  | [_], e => cases e
  | [a, b], e => simp at e; obtain ⟨rfl, rfl, rfl⟩ := e; exact ⟨_, rfl, rfl⟩
  | a :: b :: c :: p, e => simp at e
example : (run (futOp Nat) (some {}) [] [.dev { finished := true, content := .exception 5 }, .sig .finished]).out = [.got (some (.throws 5))] := by decide
end

/-! ### C51: `co_await call` -/
section
variable {ν : Type}

/-- Finished: the reply, at once. -/
theorem C51_immediate (v : ν) (gap ops : List (Op BusSig (Pending ν))) : (run (busOp ν) (some (some v)) gap ops).out = [.got (some v)] :=
  (ready_out gap rfl ops).1

/-- Otherwise exactly when the watcher reports it finished, with the reply that is there then. -/
theorem C51_result (ops : List (Op BusSig (Pending ν))) (hg : Op.gone ∉ ops) (r : Option ν) :
    (run (busOp ν) (some none) [] ops).out = [.got r] ↔ ∃ pre post, ops = pre ++ .sig .finished :: post ∧ Op.sig .finished ∉ pre ∧
      r = (device (some none) pre).join := by
  rw [direct_iff (wf_busOp ν) rfl rfl rfl]
  simp only [device_nil]
  constructor
  · rintro ⟨pre, op, post, e, hf, hb⟩
    obtain ⟨x, rfl, h1, h2, h3⟩ := (first_sig rfl none pre op).1 hf
    exact ⟨pre, post, e, (fun hm => by cases h3 _ hm), hb⟩
  · rintro ⟨pre, post, rfl, h1, rfl⟩
    refine ⟨pre, .sig .finished, post, rfl, (first_sig rfl none pre _).2 ⟨_, rfl, rfl, ?_, ?_⟩, rfl⟩
    · intro h; exact hg (by simp [h])
    · intro y hy; cases y; exact absurd hy h1

/-- Exactly once. -/
theorem C51_once (d : Option (Pending ν)) (gap ops : List (Op BusSig (Pending ν))) :
    (run (busOp ν) d gap ops).out = [] ∨ ∃ r, (run (busOp ν) d gap ops).out = [.got r] := out_le_one (wf_busOp ν) d gap ops

theorem C51_complete (pre post : List (Op BusSig (Pending ν))) (hg : Op.gone ∉ pre) :
    ∃ r, (run (busOp ν) (some none) [] (pre ++ .sig .finished :: post)).out = [.got r] :=
  direct_complete (wf_busOp ν) rfl rfl rfl ⟨rfl, (device_isSome none pre).2 hg⟩

theorem C51_pending (ops : List (Op BusSig (Pending ν))) (hn : Op.sig .finished ∉ ops) : (run (busOp ν) (some none) [] ops).out = [] := by
  refine untriggered_out (wf_busOp ν) rfl rfl ops (untriggered_sig rfl none ops ?_)
  rintro p y q rfl -; cases y; simp at hn

example : (run (busOp Nat) (some none) [] [.loop, .dev (some 3), .sig .finished, .loop, .sig .finished]).out = [.got (some 3)] := by decide
end

end QCoro.Aw
