import Verif.Signal.Props
import Verif.Wait.More
/-! # C86: timeouts that do not fit into an `int` -/
set_option linter.unusedSimpArgs false

namespace QCoro.Long

/-- Before Qt 6.8 `QTimer` keeps its interval in an `int`; since then in a `std::chrono` duration.
Models Qt, not code of /repo; the project supports both (`CMakeLists.txt:56-58` lists components for Qt 5 and Qt 6 and asks for no minor version). -/
inductive Qt | narrow | wide
deriving DecidableEq, Repr

/-- `int(msec.count())`: 32 bit two's complement.
Models the conversion inside `QTimer::setInterval`/`QTimer::start(std::chrono::milliseconds)`, called at `qcoro/core/qcorosignal.h:127` and `qcoro/core/qcorotimer.h:62`. -/
def interval : Qt → Int → Int
  | .narrow, ms => ms.bmod (2 ^ 32)
  | .wide, ms => ms

theorem interval_short (q : Qt) (ms : Int) (h0 : 0 ≤ ms) (h : ms < 2 ^ 31) : interval q ms = ms := by
  cases q with
  | wide => rfl
  | narrow => simp only [interval, Int.bmod]; omega

/-- In words: the interval is the timeout modulo 2^32 if that is less than 2^31, and negative otherwise. -/
theorem interval_cases (ms : Int) : (ms % 2 ^ 32 < 2 ^ 31 → interval .narrow ms = ms % 2 ^ 32) ∧ (2 ^ 31 ≤ ms % 2 ^ 32 → interval .narrow ms < 0) := by
  constructor <;> intro h <;> simp only [interval, Int.bmod] <;> omega

end QCoro.Long

namespace QCoro.Sig
open QCoro.Long
variable {α : Type}

/-- One step, with the interval as `QTimer` keeps it: the timer object is created if the timeout is not negative (`qcoro/core/qcorosignal.h:125`), it is given
the converted interval (`:127`), and `QTimer::start()` (`:118`) starts nothing if that is negative ("Timers cannot have negative intervals").
Everything else as in `Sig.step`, whose cases cite the lines (`qcoro/core/qcorosignal.h:111-234`). -/
def stepQ (q : Qt) (s : State α) : Op α → State α
  | .await th k =>
    if s.ub.isSome then s else
    let w := s.nw
    let s0 : State α := ({ s with nw := w + 1 } : State α).emit (.awaited w th k s.now)
    let x : Wait α := { kind := k, thread := th, waiting := true, hasTimer := decide (k.ms > -1) }
    if s.alive = false then ({ s0 with ws := upd s0.ws w x } : State α).resume w th false
    else
      let i := interval q k.ms
      let x1 := if x.hasTimer then { x with timerConn := true, timer := if 0 ≤ i then some (s.now + i.toNat) else none } else x
      { s0 with ws := upd s0.ws w { x1 with conn := true } }
  | op => step s op

/-- Bookkeeping of the model, no counterpart in /repo. -/
def execQ (q : Qt) (ops : List (Op α)) : State α := ops.foldl (stepQ q) {}

theorem execQ_snoc (q : Qt) (ops : List (Op α)) (op : Op α) : execQ q (ops ++ [op]) = stepQ q (execQ q ops) op := by simp [execQ]

/-! ### The same as a wait with another timeout -/

/-- The timeout that has the same effect. -/
def eff (q : Qt) : Kind → Kind
  | .timed ms => .timed (if 0 ≤ ms then interval q ms else ms)
  | .plain => .plain

def effOp (q : Qt) : Op α → Op α
  | .await th k => .await th (eff q k)
  | op => op

def effEv (q : Qt) : Ev α → Ev α
  | .awaited w th k t => .awaited w th (eff q k) t
  | e => e

def absW (q : Qt) (x : Wait α) : Wait α :=
  { x with kind := eff q x.kind, hasTimer := x.hasTimer && decide (0 ≤ (eff q x.kind).ms), timerConn := x.timerConn && decide (0 ≤ (eff q x.kind).ms) }

def abs (q : Qt) (s : State α) : State α := { s with ws := fun w => absW q (s.ws w), log := s.log.map (effEv q) }

def J (q : Qt) (s : State α) : Prop := ∀ w, (s.ws w).timer ≠ none → 0 ≤ (eff q (s.ws w).kind).ms

theorem abs_upd (q : Qt) (f : Nat → Wait α) (i : Nat) (x : Wait α) : (fun w => absW q (upd f i x w)) = upd (fun w => absW q (f w)) i (absW q x) := by
  funext w
  by_cases h : w = i
  · subst h; simp
  · rw [upd_other _ _ h, upd_other _ _ h]

theorem eff_plain (q : Qt) (k : Kind) : eff q k = .plain ↔ k = .plain := by cases k <;> simp [eff]

theorem resume_eq (s : State α) (w th : Nat) (ie : Bool) : s.resume w th ie =
    { alive := s.alive, now := s.now, nw := s.nw
      ws := upd s.ws w { s.ws w with waiting := false, conn := false, timer := none, hasTimer := false, timerConn := false }
      posted := fun t => (s.posted t).filter (fun p => p.1 != w)
      log := s.log ++ [.resumed w th (s.ws w).result s.now ie]
      ub := if (s.ws w).kind = .plain ∧ (s.ws w).result.isNone = true then some (.derefNullopt w) else s.ub } := by
  unfold State.resume
  dsimp only
  split <;> rfl

theorem abs_resume (q : Qt) (s : State α) (w th : Nat) (ie : Bool) : abs q (s.resume w th ie) = (abs q s).resume w th ie := by
  rw [resume_eq, resume_eq]
  simp only [abs, abs_upd, List.map_append, List.map_cons, List.map_nil, effEv]
  simp only [absW, eff_plain, Bool.false_and]

def slotW (x : Wait α) (a : α) : Wait α := { x with timer := (if x.hasTimer then none else x.timer), conn := false, result := some a }

theorem slot_eq (s : State α) (w : Nat) (a : α) (th : Nat) (ie : Bool) : s.slot w a th ie =
    if (s.ws w).waiting then ({ s with ws := upd s.ws w (slotW (s.ws w) a) } : State α).resume w th ie else { s with ws := upd s.ws w (slotW (s.ws w) a) } := rfl

theorem abs_slotW (q : Qt) (x : Wait α) (a : α) (h : x.timer ≠ none → 0 ≤ (eff q x.kind).ms) : absW q (slotW x a) = slotW (absW q x) a := by
  obtain ⟨kind, thread, waiting, conn, hasTimer, timer, timerConn, result⟩ := x
  dsimp only at h
  cases hasTimer with
  | false => simp [absW, slotW]
  | true =>
    by_cases h2 : 0 ≤ (eff q kind).ms
    · simp [absW, slotW, h2]
    · have : timer = none := Decidable.by_contra fun h3 => h2 (h h3)
      subst this
      simp [absW, slotW, h2]

theorem abs_slot (q : Qt) (s : State α) (hj : J q s) (w : Nat) (a : α) (th : Nat) (ie : Bool) : abs q (s.slot w a th ie) = (abs q s).slot w a th ie := by
  have e : abs q { s with ws := upd s.ws w (slotW (s.ws w) a) } = { abs q s with ws := upd (abs q s).ws w (slotW ((abs q s).ws w) a) } := by
    simp only [abs, abs_upd]
    rw [abs_slotW q _ a (hj w)]
  rw [slot_eq, slot_eq, ← e, show ((abs q s).ws w).waiting = (s.ws w).waiting from rfl]
  split
  · exact abs_resume ..
  · rfl

theorem J_resume {q : Qt} {s : State α} (hj : J q s) (w th : Nat) (ie : Bool) : J q (s.resume w th ie) := by
  intro v
  have e : (s.resume w th ie).ws = upd s.ws w { s.ws w with waiting := false, conn := false, timer := none, hasTimer := false, timerConn := false } := by
    unfold State.resume; dsimp only; split <;> rfl
  rw [e]
  by_cases h : v = w
  · subst h; simp
  · rw [upd_other _ _ h]; exact hj v

theorem J_upd {q : Qt} {s : State α} (hj : J q s) (s' : State α) (w : Nat) (x : Wait α) (hs : s'.ws = upd s.ws w x) (hx : x.timer ≠ none → 0 ≤ (eff q x.kind).ms) : J q s' := by
  intro v
  rw [hs]
  by_cases h : v = w
  · subst h; simpa using hx
  · rw [upd_other _ _ h]; exact hj v

theorem J_slot {q : Qt} {s : State α} (hj : J q s) (w : Nat) (a : α) (th : Nat) (ie : Bool) : J q (s.slot w a th ie) := by
  unfold State.slot
  dsimp only
  have h1 : J q { s with ws := upd s.ws w { s.ws w with timer := (if (s.ws w).hasTimer then none else (s.ws w).timer), conn := false, result := some a } } := by
    refine J_upd hj _ w _ rfl ?_
    dsimp only
    split
    · simp
    · exact hj w
  split
  · exact J_resume h1 w th ie
  · exact h1

theorem J_activate {q : Qt} {s : State α} (hj : J q s) (th : Nat) (a : α) (w : Nat) : J q (s.activate th a w) := by
  unfold State.activate
  simp only [connType]
  split
  · exact hj
  · exact hj

theorem abs_activate (q : Qt) (s : State α) (th : Nat) (a : α) (w : Nat) : abs q (s.activate th a w) = (abs q s).activate th a w := by
  unfold State.activate
  simp only [connType]
  have : ((abs q s).ws w).conn = (s.ws w).conn := rfl
  rw [this]
  split <;> rfl

theorem abs_fold (q : Qt) (th : Nat) (a : α) (l : List Nat) : ∀ s : State α, J q s →
    abs q (l.foldl (fun s w => s.activate th a w) s) = l.foldl (fun s w => s.activate th a w) (abs q s) ∧ J q (l.foldl (fun s w => s.activate th a w) s) := by
  induction l with
  | nil => exact fun s hj => ⟨rfl, hj⟩
  | cons w l ih =>
    intro s hj
    have := ih (s.activate th a w) (J_activate hj th a w)
    simp only [List.foldl_cons]
    rw [← abs_activate]
    exact this

theorem eff_ms (q : Qt) (k : Kind) : (eff q k).ms = if 0 ≤ k.ms then interval q k.ms else k.ms := by
  cases k <;> rfl

theorem sim_await (q : Qt) (s : State α) (hj : J q s) (th : Nat) (k : Kind) :
    abs q (stepQ q s (.await th k)) = step (abs q s) (.await th (eff q k)) ∧ J q (stepQ q s (.await th k)) := by
  simp only [stepQ, step]
  rw [show (abs q s).ub = s.ub from rfl]
  split
  · exact ⟨rfl, hj⟩
  rw [show (abs q s).alive = s.alive from rfl]
  split
  · constructor
    · rw [abs_resume]
      refine congrArg (fun x => State.resume x _ _ _) ?_
      simp only [abs, State.emit, abs_upd, List.map_append, List.map_cons, List.map_nil, effEv]
      have e : absW q { kind := k, thread := th, waiting := true, hasTimer := decide (k.ms > -1) } = ({ kind := eff q k, thread := th, waiting := true, hasTimer := decide ((eff q k).ms > -1) } : Wait α) := by
        have : (decide (k.ms > -1) && decide (0 ≤ (eff q k).ms)) = decide ((eff q k).ms > -1) := by
          rw [eff_ms]; by_cases h : 0 ≤ k.ms
          · rw [if_pos h, decide_eq_true (show k.ms > -1 by omega), Bool.true_and]; exact decide_eq_decide.2 (by omega)
          · rw [if_neg h, decide_eq_false (show ¬ k.ms > -1 by omega), Bool.false_and]
        simp [absW, this]
      rw [e]
    · refine J_resume (J_upd hj _ s.nw _ rfl ?_) _ _ _
      simp
  · constructor
    · simp only [abs, State.emit, abs_upd, List.map_append, List.map_cons, List.map_nil, effEv]
      have e : ∀ y : Wait α, y = (if decide (k.ms > -1) = true then { kind := k, thread := th, waiting := true, hasTimer := decide (k.ms > -1), timerConn := true, timer := if 0 ≤ interval q k.ms then some (s.now + (interval q k.ms).toNat) else none } else { kind := k, thread := th, waiting := true, hasTimer := decide (k.ms > -1) }) →
          ∀ z : Wait α, z = (if decide ((eff q k).ms > -1) = true then { kind := eff q k, thread := th, waiting := true, hasTimer := decide ((eff q k).ms > -1), timerConn := true, timer := some (s.now + (eff q k).ms.toNat) } else { kind := eff q k, thread := th, waiting := true, hasTimer := decide ((eff q k).ms > -1) }) →
          absW q { y with conn := true } = { z with conn := true } := by
        intro y hy z hz
        rw [eff_ms] at hz
        by_cases h : 0 ≤ k.ms
        · rw [if_pos (by simp; omega)] at hy
          rw [if_pos h] at hz
          by_cases h2 : 0 ≤ interval q k.ms
          · rw [if_pos (by simp; omega)] at hz
            rw [hy, hz]
            simp [absW, eff_ms, h, h2]
            omega
          · rw [if_neg (by simp; omega)] at hz
            rw [hy, hz]
            simp [absW, eff_ms, h, h2]
            omega
        · rw [if_neg (by simp; omega)] at hy
          rw [if_neg h, if_neg (by simp; omega)] at hz
          rw [hy, hz]
          simp [absW, eff_ms, h]; omega
      rw [e _ rfl _ rfl]
    · refine J_upd hj _ s.nw _ rfl ?_
      dsimp only
      split
      · rename_i h
        dsimp only
        have hk : 0 ≤ k.ms := by simp at h; omega
        have he : (eff q k).ms = interval q k.ms := by rw [eff_ms, if_pos hk]
        by_cases h2 : 0 ≤ interval q k.ms
        · intro _; rw [he]; exact h2
        · rw [if_neg h2]; exact fun h => absurd rfl h
      · exact fun h => absurd rfl h

theorem sim (q : Qt) (s : State α) (hj : J q s) (op : Op α) : abs q (stepQ q s op) = step (abs q s) (effOp q op) ∧ J q (stepQ q s op) := by
  cases op with
  | await th k => exact sim_await q s hj th k
  | emit th a =>
    simp only [stepQ, step, effOp]
    rw [show (abs q s).ub = s.ub from rfl]
    split
    · exact ⟨rfl, hj⟩
    rw [show (abs q s).alive = s.alive from rfl]
    split
    · have := abs_fold q th a (List.range s.nw) (s.emit (.emitted th a)) hj
      refine ⟨this.1.trans ?_, this.2⟩
      simp [abs, State.emit, effEv]
    · exact ⟨rfl, hj⟩
  | process th =>
    simp only [stepQ, step, effOp]
    rw [show (abs q s).ub = s.ub from rfl, show (abs q s).posted = s.posted from rfl]
    split
    · exact ⟨rfl, hj⟩
    split
    · exact ⟨rfl, hj⟩
    · rename_i w a rest _
      have hj' : J q { s with posted := upd s.posted th rest } := hj
      exact ⟨abs_slot q _ hj' _ _ _ _, J_slot hj' _ _ _ _⟩
  | time d =>
    simp only [stepQ, step, effOp]
    rw [show (abs q s).ub = s.ub from rfl]
    split
    · exact ⟨rfl, hj⟩
    · exact ⟨rfl, hj⟩
  | fire w =>
    simp only [stepQ, step, effOp]
    rw [show (abs q s).ub = s.ub from rfl, show ((abs q s).ws w).timer = (s.ws w).timer from rfl]
    split
    · exact ⟨rfl, hj⟩
    split
    · exact ⟨rfl, hj⟩
    · rename_i d hd
      have h0 := hj w (by rw [hd]; simp)
      rw [show (abs q s).now = s.now from rfl]
      have hc : ((abs q s).ws w).timerConn = (s.ws w).timerConn := by simp [abs, absW, h0]
      have hj1 : J q { s with ws := upd s.ws w { s.ws w with timer := none } } := J_upd hj _ w _ rfl (by simp)
      split
      · by_cases ht : (s.ws w).timerConn = true
        · rw [if_pos ht, if_pos (hc.trans ht)]
          constructor
          · rw [abs_resume]
            refine congrArg (fun x => State.resume x w (s.ws w).thread false) ?_
            simp only [abs, abs_upd, upd_same]
            rfl
          · refine J_resume (J_upd hj1 _ w _ rfl ?_) _ _ _
            simp
        · rw [if_neg ht, if_neg (fun h => ht (hc.symm.trans h))]
          refine ⟨?_, hj1⟩
          simp only [abs, abs_upd]
          rfl
      · exact ⟨rfl, hj⟩
  | destroy =>
    simp only [stepQ, step, effOp]
    rw [show (abs q s).ub = s.ub from rfl]
    split
    · exact ⟨rfl, hj⟩
    rw [show (abs q s).alive = s.alive from rfl]
    split
    · refine ⟨?_, hj⟩
      simp only [abs, absW, State.emit, effEv, List.map_append, List.map_cons, List.map_nil, Bool.false_and]
      rfl
    · exact ⟨rfl, hj⟩

theorem sim_exec (q : Qt) (ops : List (Op α)) : abs q (execQ q ops) = exec (ops.map (effOp q)) ∧ J q (execQ q ops) := by
  induction ops using snocInd with
  | nil => exact ⟨rfl, fun w h => absurd rfl h⟩
  | snoc ops op ih =>
    rw [List.map_append, List.map_cons, List.map_nil, exec_snoc, ← ih.1, execQ_snoc]
    exact sim q _ ih.2 op

/-! ### The theorems -/

/-- **Timeouts below 2³¹ ms (24 days 20 hours) are what they say**, with every Qt: the conversion changes nothing at all, and C27–C30, C59 and C63 hold as stated. -/
theorem C86_short (q : Qt) (ops : List (Op α)) (h : ∀ th ms, .await th (.timed ms) ∈ ops → ms < 2 ^ 31) : execQ q ops = exec ops := by
  induction ops using snocInd with
  | nil => rfl
  | snoc ops op ih =>
    rw [execQ_snoc, exec_snoc, ih (fun th ms hm => h th ms (by simp [hm]))]
    cases op with
    | await th k =>
      simp only [stepQ, step]
      cases k with
      | plain => rfl
      | timed ms =>
        have h1 := h th ms (by simp)
        by_cases h0 : 0 ≤ ms
        · rw [show interval q (Kind.timed ms).ms = ms from interval_short q ms h0 h1, if_pos h0]
          rfl
        · have hd : decide ((Kind.timed ms).ms > -1) = false := by simp [Kind.ms]; omega
          rw [hd]
          rfl
    | _ => rfl

/-- … and since Qt 6.8 all timeouts are. -/
theorem C86_wide (ops : List (Op α)) : execQ .wide ops = exec ops := by
  induction ops using snocInd with
  | nil => rfl
  | snoc ops op ih =>
    rw [execQ_snoc, exec_snoc, ih]
    cases op with
    | await th k =>
      simp only [stepQ, step]
      by_cases h0 : 0 ≤ k.ms
      · rw [show interval .wide k.ms = k.ms from rfl, if_pos h0]
      · have hd : decide (k.ms > -1) = false := by simp; omega
        rw [hd]; rfl
    | _ => rfl

theorem after_alive_iff (l : List (Ev α)) : (Spec.after l).alive = true ↔ .destroyed ∉ l := by
  induction l using snocInd with
  | nil => simp [Spec.after]
  | snoc l e ih => rw [Spec.after_snoc]; cases e <;> simp [Spec.next, ih]

theorem eff_dest (q : Qt) (l : List (Ev α)) : .destroyed ∈ l.map (effEv q) ↔ .destroyed ∈ l := by
  constructor
  · intro h
    obtain ⟨e, h1, h2⟩ := List.mem_map.1 h
    cases e <;> simp [effEv] at h2
    exact h1
  · intro h; exact List.mem_map.2 ⟨_, h, rfl⟩

theorem eff_resumes (q : Qt) (w : Nat) (l : List (Ev α)) : resumes w (l.map (effEv q)) = resumes w l := by
  unfold resumes
  rw [List.countP_map]
  congr 1
  funext e
  cases e <;> rfl

/-- **Before Qt 6.8 the timeout counts modulo 2³²**: a wait on an existing object that ends without a result has a non-negative timeout with
`ms mod 2³² < 2³¹`, and at least `ms mod 2³²` milliseconds have passed. -/
theorem C86_nullopt_only (ops : List (Op α)) (pre mid post : List (Ev α)) (w th th' : Nat) (ms : Int) (t now : Nat) (ie : Bool)
    (h : (execQ .narrow ops).log = pre ++ .awaited w th (.timed ms) t :: (mid ++ .resumed w th' none now ie :: post))
    (hal : .destroyed ∉ pre) : 0 ≤ ms ∧ ms % 2 ^ 32 < 2 ^ 31 ∧ (t : Int) + ms % 2 ^ 32 ≤ now := by
  have hs := (sim_exec .narrow ops).1
  have hl : (exec (ops.map (effOp .narrow))).log = (execQ .narrow ops).log.map (effEv .narrow) := by rw [← hs]; rfl
  rw [h] at hl
  simp only [List.map_append, List.map_cons, effEv] at hl
  obtain ⟨h1, h2⟩ := C28_nullopt_only_on_timeout _ _ _ _ w th th' (eff .narrow (.timed ms)) t now ie hl ((after_alive_iff _).2 (fun hd => hal ((eff_dest _ _).1 hd)))
  have he : (eff .narrow (.timed ms)).ms = if 0 ≤ ms then interval .narrow ms else ms := rfl
  rw [he] at h1 h2
  by_cases h0 : 0 ≤ ms
  · rw [if_pos h0] at h1 h2
    have hc := interval_cases ms
    by_cases h3 : ms % 2 ^ 32 < 2 ^ 31
    · rw [hc.1 h3] at h2; exact ⟨h0, h3, h2⟩
    · have := hc.2 (by omega); omega
  · rw [if_neg h0] at h1; omega

/-- … and that is when it ends: as soon as the event loop looks `ms mod 2³²` milliseconds after the wait began, if nothing was delivered before. -/
theorem C86_ends (ops : List (Op α)) (hu : (execQ .narrow ops).ub = none) (pre mid : List (Ev α)) (w th : Nat) (ms : Int) (t : Nat)
    (h : (execQ .narrow ops).log = pre ++ .awaited w th (.timed ms) t :: mid) (hr : resumes w mid = 0) (h0 : 0 ≤ ms) (hms : ms % 2 ^ 32 < 2 ^ 31)
    (hal : (execQ .narrow ops).alive = true) (hnow : (t : Int) + ms % 2 ^ 32 ≤ (execQ .narrow ops).now) :
    (execQ .narrow (ops ++ [.fire w])).log = (execQ .narrow ops).log ++ [.resumed w th none (execQ .narrow ops).now false] := by
  have hs := (sim_exec .narrow ops).1
  have hs' := (sim_exec .narrow (ops ++ [Op.fire w])).1
  have hl : (exec (ops.map (effOp .narrow))).log = (execQ .narrow ops).log.map (effEv .narrow) := by rw [← hs]; rfl
  have hl' : (exec ((ops ++ [Op.fire w]).map (effOp .narrow))).log = (execQ .narrow (ops ++ [.fire w])).log.map (effEv .narrow) := by rw [← hs']; rfl
  have hi : (eff .narrow (.timed ms)).ms = ms % 2 ^ 32 := by
    rw [eff_ms, show (Kind.timed ms).ms = ms from rfl, if_pos h0]
    exact (interval_cases ms).1 hms
  have key := C28_timeout_ends_wait (ops.map (effOp .narrow)) (by rw [← hs]; exact hu) (pre.map (effEv .narrow)) (mid.map (effEv .narrow)) w th (ms % 2 ^ 32) t
    (by rw [hl, h]; simp [effEv, eff, h0, (interval_cases ms).1 hms]) (by rw [eff_resumes]; exact hr) (by omega) (by rw [← hs]; exact hal) (by rw [← hs]; exact hnow)
  rw [List.map_append] at hl'
  rw [show (List.map (effOp .narrow) [(.fire w : Op α)]) = [.fire w] from rfl, key, hl] at hl'
  -- the step only appends events that are not `awaited`
  have hst : ∃ n, (execQ .narrow (ops ++ [.fire w])).log = (execQ .narrow ops).log ++ n ∧ n.map (effEv .narrow) = n := by
    rw [execQ_snoc]
    simp only [stepQ, step]
    split
    · exact ⟨[], by simp, rfl⟩
    · split
      · exact ⟨[], by simp, rfl⟩
      · split
        · split
          · rw [resume_eq]; exact ⟨_, rfl, rfl⟩
          · exact ⟨[], by simp, rfl⟩
        · exact ⟨[], by simp, rfl⟩
  obtain ⟨n, hn, hn'⟩ := hst
  rw [hn] at hl' ⊢
  rw [List.map_append, hn'] at hl'
  rw [← List.append_cancel_left hl']
  rw [← hs]; rfl

/-- Found: with a timeout from 2³¹ to 2³² − 1 ms (25 to 49 days) a wait **never** times out … -/
theorem C86_never (ops : List (Op α)) (pre mid post : List (Ev α)) (w th th' : Nat) (ms : Int) (t now : Nat) (ie : Bool) (h1 : 2 ^ 31 ≤ ms) (h2 : ms < 2 ^ 32)
    (hal : .destroyed ∉ pre) : (execQ .narrow ops).log ≠ pre ++ .awaited w th (.timed ms) t :: (mid ++ .resumed w th' none now ie :: post) := by
  intro h
  have := (C86_nullopt_only ops pre mid post w th th' ms t now ie h hal).2.1
  omega

/-- Found: … and with one of 2³² ms (49 days 17 hours) it times out at once. -/
theorem C86_found_early : (execQ .narrow [.await 0 (.timed (2 ^ 32)), .fire 0] : State Nat).log =
    [.awaited 0 0 (.timed (2 ^ 32)) 0, .resumed 0 0 none 0 false] := by decide

/-- Results are still delivered, whatever the timeout. -/
example : (execQ .narrow [.await 0 (.timed (2 ^ 31)), .time (2 ^ 33), .fire 0, .emit 0 7, .process 0] : State Nat).log =
    [.awaited 0 0 (.timed (2 ^ 31)) 0, .emitted 0 7, .resumed 0 0 (some 7) (2 ^ 33) false] := by decide
example : (execQ .narrow [.await 0 (.timed (2 ^ 32 + 5)), .time 4, .fire 0] : State Nat).log = [.awaited 0 0 (.timed (2 ^ 32 + 5)) 0] ∧
    (execQ .narrow [.await 0 (.timed (2 ^ 32 + 5)), .time 5, .fire 0] : State Nat).log = [.awaited 0 0 (.timed (2 ^ 32 + 5)) 0, .resumed 0 0 none 5 false] := by decide

end QCoro.Sig

/-! ### Everything that waits for a signal with a timeout -/

namespace QCoro.Wait
open QCoro.Long
variable {σ ρ δ β : Type}

/-- A suspended call, the inner `co_await qCoro(…, timeout)` with the interval as `QTimer` keeps it (`qcoro/core/qcorosignal.h:123-130`).
All the waiting functions pass their timeout on unchanged (e.g. `qcoro/core/qcoroiodevice.cpp:133-134`). Otherwise as `Wait.run`. -/
def runQ (q : Qt) (h : Helper σ ρ) (k : Cont ρ δ β) (t : Int) (d : δ) (ops : List (Op σ δ)) : State σ ρ δ β :=
  ops.foldl (step h k) { sg := Sig.execQ q [.await 0 (.timed t)], dev := some d }

/-- The answer of a call. Bookkeeping of the model, no counterpart in /repo. -/
def Call.outQ (q : Qt) : Call ρ δ β → Int → δ → List (Op DSig δ) → Option (Res β)
  | .ret r _, _, _, _ => some r
  | .wait h k, t, d, ops => (runQ q h k t d ops).out

/-- The timeout that has the same effect. -/
def effT (q : Qt) (t : Int) : Int := if 0 ≤ t then interval q t else t

def absS (q : Qt) (s : State σ ρ δ β) : State σ ρ δ β := { s with sg := Sig.abs q s.sg }

theorem eff_answer (q : Qt) (l : List (Sig.Ev ρ)) : Sig.answer (l.map (Sig.effEv q)) = Sig.answer l := by
  unfold Sig.answer
  rw [List.findSome?_map]
  congr 1
  funext e
  cases e <;> rfl

theorem sim_sg (q : Qt) (g : Sig.State ρ) (hj : Sig.J q g) (op : Sig.Op ρ) (hop : ∀ th k, op ≠ .await th k) :
    Sig.abs q (Sig.step g op) = Sig.step (Sig.abs q g) op ∧ Sig.J q (Sig.step g op) := by
  have := Sig.sim q g hj op
  cases op with
  | await th k => exact absurd rfl (hop th k)
  | _ => exact this

theorem abs_settle (q : Qt) (k : Cont ρ δ β) (s : State σ ρ δ β) : absS q (s.settle k) = (absS q s).settle k ∧ (s.settle k).sg = s.sg := by
  unfold State.settle
  rw [show (absS q s).sg.log = s.sg.log.map (Sig.effEv q) from rfl, eff_answer]
  split <;> exact ⟨rfl, rfl⟩

theorem abs_ready (q : Qt) (s : State σ ρ δ β) (hj : Sig.J q s.sg) (c : Conn σ ρ) (r : ρ) : absS q (s.ready c r) = (absS q s).ready c r ∧ Sig.J q (s.ready c r).sg := by
  obtain ⟨h1, h2⟩ := sim_sg q s.sg hj (.emit 0 r) (by simp)
  refine ⟨?_, h2⟩
  unfold State.ready absS
  dsimp only
  rw [h1]

theorem abs_activate (q : Qt) (h : Helper σ ρ) (x : σ) (cross : Bool) (s : State σ ρ δ β) (hj : Sig.J q s.sg) (ci : Conn σ ρ × Nat) :
    absS q (s.activate h x cross ci) = (absS q s).activate h x cross ci ∧ Sig.J q (s.activate h x cross ci).sg := by
  unfold State.activate
  split
  · exact ⟨rfl, hj⟩
  · rw [show (absS q s).live = s.live from rfl]
    split
    · split
      · exact ⟨rfl, hj⟩
      · exact abs_ready q s hj _ _
    · exact ⟨rfl, hj⟩

theorem abs_fold (q : Qt) (h : Helper σ ρ) (x : σ) (cross : Bool) (l : List (Conn σ ρ × Nat)) : ∀ s : State σ ρ δ β, Sig.J q s.sg →
    absS q (l.foldl (State.activate h x cross) s) = l.foldl (State.activate h x cross) (absS q s) ∧ Sig.J q (l.foldl (State.activate h x cross) s).sg := by
  induction l with
  | nil => exact fun s hj => ⟨rfl, hj⟩
  | cons c l ih =>
    intro s hj
    obtain ⟨h1, h2⟩ := abs_activate q h x cross s hj c
    simp only [List.foldl_cons]
    rw [← h1]
    exact ih _ h2

theorem sim_step (q : Qt) (h : Helper σ ρ) (k : Cont ρ δ β) (s : State σ ρ δ β) (hj : Sig.J q s.sg) (op : Op σ δ) :
    absS q (step h k s op) = step h k (absS q s) op ∧ Sig.J q (step h k s op).sg := by
  unfold step
  rw [show (absS q s).out = s.out from rfl]
  split
  · exact ⟨rfl, hj⟩
  cases op with
  | sig x cross =>
    dsimp only
    rw [show (absS q s).dev = s.dev from rfl]
    split
    · exact abs_fold q h x cross _ s hj
    · exact ⟨rfl, hj⟩
  | dev d =>
    dsimp only
    rw [show (absS q s).dev = s.dev from rfl]
    split <;> exact ⟨rfl, hj⟩
  | gone =>
    obtain ⟨h1, h2⟩ := sim_sg q s.sg hj .destroy (by simp)
    dsimp only
    constructor
    · unfold absS
      dsimp only
      by_cases ho : h.own = true
      · rw [if_pos ho, if_pos ho, h1]
      · rw [if_neg ho, if_neg ho]
    · split
      · exact h2
      · exact hj
  | handler =>
    dsimp only
    rw [show (absS q s).hq = s.hq from rfl]
    split
    · exact ⟨rfl, hj⟩
    · split
      · exact ⟨rfl, hj⟩
      · rename_i i r l _ _ c _
        exact abs_ready q { s with hq := l } hj c r
  | deliver =>
    obtain ⟨h1, h2⟩ := sim_sg q s.sg hj (.process 0) (by simp)
    obtain ⟨h3, h4⟩ := abs_settle q k { s with sg := Sig.step s.sg (.process 0) }
    refine ⟨h3.trans ?_, ?_⟩
    · unfold absS; dsimp only; rw [h1]
    · show Sig.J q (State.settle k _).sg
      rw [h4]; exact h2
  | time d =>
    obtain ⟨h1, h2⟩ := sim_sg q s.sg hj (.time d) (by simp)
    refine ⟨?_, h2⟩
    unfold absS; dsimp only; rw [h1]
  | fire =>
    obtain ⟨h1, h2⟩ := sim_sg q s.sg hj (.fire 0) (by simp)
    obtain ⟨h3, h4⟩ := abs_settle q k { s with sg := Sig.step s.sg (.fire 0) }
    refine ⟨h3.trans ?_, ?_⟩
    · unfold absS; dsimp only; rw [h1]
    · show Sig.J q (State.settle k _).sg
      rw [h4]; exact h2

theorem sim_run (q : Qt) (h : Helper σ ρ) (k : Cont ρ δ β) (t : Int) (d : δ) (ops : List (Op σ δ)) :
    absS q (runQ q h k t d ops) = run h k (effT q t) d ops ∧ Sig.J q (runQ q h k t d ops).sg := by
  induction ops using snocInd with
  | nil =>
    obtain ⟨h1, h2⟩ := Sig.sim_exec q [(.await 0 (.timed t) : Sig.Op ρ)]
    refine ⟨?_, h2⟩
    unfold runQ run start absS
    simp only [List.foldl_nil]
    rw [h1]
    rfl
  | snoc ops op ih =>
    have e : runQ q h k t d (ops ++ [op]) = step h k (runQ q h k t d ops) op := by simp [runQ]
    rw [run_snoc, ← ih.1, e]
    exact sim_step q h k _ ih.2 op

/-- **Every waiting function** (devices, processes, threads, sockets, servers, replies, D-Bus calls, web sockets): with a timeout `t` it does what it would do with the timeout
`t mod 2³²` if that is below 2³¹, and what it would do without a timeout otherwise. All the theorems about these functions are for all timeouts. -/
theorem C86_calls (c : Call ρ δ β) (t : Int) (ht : 0 ≤ t) (d : δ) (ops : List (Op DSig δ)) :
    (t % 2 ^ 32 < 2 ^ 31 → c.outQ .narrow t d ops = c.out (t % 2 ^ 32) d ops) ∧
    (2 ^ 31 ≤ t % 2 ^ 32 → ∃ t' < 0, c.outQ .narrow t d ops = c.out t' d ops) := by
  have key : c.outQ .narrow t d ops = c.out (interval .narrow t) d ops := by
    cases c with
    | ret r d' => rfl
    | wait h k =>
      have := (sim_run .narrow h k t d ops).1
      rw [show effT .narrow t = interval .narrow t by unfold effT; rw [if_pos ht]] at this
      show (runQ .narrow h k t d ops).out = (run h k (interval .narrow t) d ops).out
      rw [← this]; rfl
  rw [key]
  exact ⟨fun h => by rw [(interval_cases t).1 h], fun h => ⟨_, (interval_cases t).2 h, rfl⟩⟩

/-- Timeouts below 2³¹ ms, negative ones among them, are what they say. -/
theorem C86_calls_short (q : Qt) (c : Call ρ δ β) (t : Int) (ht : t < 2 ^ 31) (d : δ) (ops : List (Op DSig δ)) : c.outQ q t d ops = c.out t d ops := by
  cases c with
  | ret r d' => rfl
  | wait h k =>
    show (runQ q h k t d ops).out = (run h k t d ops).out
    unfold runQ run start
    rw [Sig.C86_short q _ (by intro th ms hm; simp at hm; rw [hm.2]; exact ht)]
    rfl

/-- Found: `waitForReadyRead` with a timeout of 25 to 49 days on a device that stays silent **never** returns … -/
theorem C86_found_hangs (d : Dev) (hw : waitsRead d) (t : Int) (h1 : 2 ^ 31 ≤ t) (h2 : t < 2 ^ 32) (ops : List (Op DSig Dev)) (hq : ∀ x ∈ heard ops, ¬ endsRead d.kind x) :
    (waitForReadyRead (some d)).outQ .narrow t d ops = none := by
  obtain ⟨t', ht, e⟩ := (C86_calls (waitForReadyRead (some d)) t (by omega) d ops).2 (by omega)
  rw [e]
  have hr := C38_waits d hw t'
  cases h : (waitForReadyRead (some d)).out t' d ops with
  | none => rfl
  | some r =>
    rcases hr.result ops r h with rfl | rfl
    · obtain ⟨x, hx, hx'⟩ := hr.sound ops h; exact absurd hx' (hq x hx)
    · have := (hr.notEarly ops h).1; omega

/-- … and with one of 2³² ms gives up at once. -/
example : (waitForReadyRead (some {})).outQ .narrow (2 ^ 32) {} [.fire] = some (.ok false) ∧ waitsRead {} ∧
    (waitForReadyRead (some {})).outQ .narrow (2 ^ 31) {} [.time (2 ^ 40), .fire] = none ∧
    (waitForReadyRead (some {})).outQ .wide (2 ^ 31) {} [.time (2 ^ 40), .fire] = some (.ok false) := by
  refine ⟨by decide, ?_, by decide, by decide⟩
  simp [waitsRead]

end QCoro.Wait

/-! ### sleepFor -/

namespace QCoro.Sleep
open QCoro.Aw QCoro.Long

/-- `QCoro::sleepFor` (`qcoro/core/qcorotimer.h:59-64`): the timer is started with the converted interval (`:62`); a negative one does not start it. -/
def sleepForQ (q : Qt) (count : Int) (num den : Nat) (env : List Env) : State Bool Unit := sleepMs (interval q (castMs count num den)) env

/-- **sleepFor, exactly, before Qt 6.8**: with `ms` the requested time in whole milliseconds it does not sleep at all if `ms mod 2³²` is 2³¹ or more, and else for
`ms mod 2³²` milliseconds. -/
theorem C86_sleep (count : Int) (num den : Nat) (env : List Env) :
    (sleepForQ .narrow count num den env).out = [.got ()] ↔
      2 ^ 31 ≤ castMs count num den % 2 ^ 32 ∨ ∃ pre post, env = pre ++ .loop :: post ∧ castMs count num den % 2 ^ 32 ≤ passed pre := by
  unfold sleepForQ
  rw [sleepMs_iff]
  have hc := interval_cases (castMs count num den)
  by_cases h : castMs count num den % 2 ^ 32 < 2 ^ 31
  · rw [hc.1 h]
    constructor
    · rintro (h1 | h1)
      · omega
      · exact .inr h1
    · rintro (h1 | h1)
      · omega
      · exact .inr h1
  · exact ⟨fun _ => .inl (by omega), fun _ => .inl (hc.2 (by omega))⟩

/-- Up to 24 days 20 hours it sleeps for what it was asked, with every Qt (so C50 holds as stated). -/
theorem C86_sleep_short (q : Qt) (count : Int) (num den : Nat) (env : List Env) (h0 : 0 ≤ castMs count num den) (h : castMs count num den < 2 ^ 31) :
    sleepForQ q count num den env = sleepFor count num den env := by
  unfold sleepForQ sleepFor
  rw [interval_short q _ h0 h]

/-- Found: `sleepFor(25 days)` does not suspend; `sleepFor(50 days)` sleeps for less than 7 hours. -/
theorem C86_found_sleep : (sleepForQ .narrow 25 86400 1 []).out = [.got ()] ∧ (sleepForQ .narrow 50 86400 1 [.time (7 * 3600000), .loop]).out = [.got ()] ∧
    (sleepForQ .wide 25 86400 1 []).out = [] := by decide

example : (sleepForQ .narrow 50 86400 1 [.time 25032703, .loop]).out = [] := by decide

end QCoro.Sleep
