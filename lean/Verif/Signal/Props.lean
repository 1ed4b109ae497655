import Verif.Signal.Inv
/-
Properties C27–C30 (and the signal part of C59): waiting for a signal.  `exec ops` is the state after an arbitrary
history of awaits, emissions (on any thread), event deliveries, timer expiries, passing time and object destruction.
-/
set_option linter.unusedSimpArgs false
namespace QCoro.Sig
variable {α : Type}

/-- Emissions in a piece of history. -/
def emissions (l : List (Ev α)) : List α := l.filterMap (fun | .emitted _ a => some a | _ => none)
/-- Is this event the continuation of wait `w`? -/
def isResume (w : Nat) : Ev α → Bool | .resumed w' _ _ _ _ => w' == w | _ => false
/-- How often the coroutine of wait `w` was continued. -/
def resumes (w : Nat) (l : List (Ev α)) : Nat := l.countP (isResume w)

theorem resumes_append (w : Nat) (a b : List (Ev α)) : resumes w (a ++ b) = resumes w a + resumes w b := by simp [resumes]
theorem resumes_cons (w : Nat) (e : Ev α) (l : List (Ev α)) :
    resumes w (e :: l) = resumes w l + if isResume w e = true then 1 else 0 := by simp [resumes, List.countP_cons]
@[simp] theorem resumes_nil (w : Nat) : resumes w ([] : List (Ev α)) = 0 := rfl
theorem emissions_append (a b : List (Ev α)) : emissions (a ++ b) = emissions a ++ emissions b := by simp [emissions]
@[simp] theorem emissions_nil : emissions ([] : List (Ev α)) = [] := rfl
@[simp] theorem emissions_awaited (w th k t) (l : List (Ev α)) : emissions (.awaited w th k t :: l) = emissions l := rfl
@[simp] theorem emissions_emitted (th a) (l : List (Ev α)) : emissions (.emitted th a :: l) = a :: emissions l := rfl
@[simp] theorem emissions_destroyed (l : List (Ev α)) : emissions (.destroyed :: l) = emissions l := rfl
@[simp] theorem emissions_resumed (w th r n b) (l : List (Ev α)) : emissions (.resumed w th r n b :: l) = emissions l := rfl

theorem track (w th : Nat) (k : Kind) (t : Nat) (pre mid : List (Ev α))
    (h : Legal Spec.next Spec.ok {} (pre ++ .awaited w th k t :: mid)) :
    ((∀ e ∈ mid, isResume w e = false) ∧ resumes w mid = 0 ∧
      (Spec.after (pre ++ .awaited w th k t :: mid)).ph w = .waiting th k t (emissions mid) (!(Spec.after pre).alive)) ∨
    (resumes w mid = 1 ∧ (Spec.after (pre ++ .awaited w th k t :: mid)).ph w = .over) := by
  induction mid using snocInd with
  | nil => left; simp [Spec.after_snoc, Spec.next]
  | snoc l e ih =>
    have hh : pre ++ Ev.awaited w th k t :: (l ++ [e]) = (pre ++ Ev.awaited w th k t :: l) ++ [e] := by simp
    rw [hh] at h
    have ih := ih h.prefix
    have hok : Spec.ok (Spec.after (pre ++ .awaited w th k t :: l)) e := h _ e [] rfl
    rw [hh, Spec.after_snoc]
    have hc : resumes w (l ++ [e]) = resumes w l + resumes w [e] := by simp [resumes_append]
    have he : emissions (l ++ [e]) = emissions l ++ emissions [e] := by simp [emissions_append]
    rw [hc, he]
    generalize Spec.after (pre ++ .awaited w th k t :: l) = S at *
    rcases ih with ⟨h0, h1, h2⟩ | ⟨h1, h2⟩
    · cases e with
      | awaited w' th' k' t' =>
        left
        have : w ≠ w' := by rintro rfl; simp [Spec.ok, h2] at hok
        refine ⟨?_, by simp [h1, resumes_append, resumes_cons, isResume], by simp [Spec.next, upd_other _ _ this, h2]⟩
        intro e he; rcases List.mem_append.mp he with he | he
        · exact h0 e he
        · simp at he; subst he; rfl
      | emitted th' a =>
        left
        refine ⟨?_, by simp [h1, resumes_append, resumes_cons, isResume], by simp [Spec.next, h2, Ph.saw]⟩
        intro e he; rcases List.mem_append.mp he with he | he
        · exact h0 e he
        · simp at he; subst he; rfl
      | destroyed =>
        left
        refine ⟨?_, by simp [h1, resumes_append, resumes_cons, isResume], by simp [Spec.next, h2]⟩
        intro e he; rcases List.mem_append.mp he with he | he
        · exact h0 e he
        · simp at he; subst he; rfl
      | resumed w' th' r now ie =>
        by_cases hw : w = w'
        · subst hw; right; simp [h1, resumes_append, resumes_cons, isResume, Spec.next]
        · left
          have hw' : (w' == w) = false := beq_false_of_ne (Ne.symm hw)
          refine ⟨?_, by simp [h1, resumes_append, resumes_cons, isResume, hw'], by simp [Spec.next, upd_other _ _ hw, h2]⟩
          intro e he; rcases List.mem_append.mp he with he | he
          · exact h0 e he
          · simp at he; subst he; simp [isResume, hw']
    · right
      cases e with
      | awaited w' th' k' t' =>
        have : w ≠ w' := by rintro rfl; simp [Spec.ok, h2] at hok
        exact ⟨by simp [h1, resumes_append, resumes_cons, isResume], by simp [Spec.next, upd_other _ _ this, h2]⟩
      | emitted th' a => exact ⟨by simp [h1, resumes_append, resumes_cons, isResume], by simp [Spec.next, h2, Ph.saw]⟩
      | destroyed => exact ⟨by simp [h1, resumes_append, resumes_cons, isResume], by simp [Spec.next, h2]⟩
      | resumed w' th' r now ie =>
        have : w ≠ w' := by rintro rfl; simp [Spec.ok, h2] at hok
        have hw' : (w' == w) = false := beq_false_of_ne (Ne.symm this)
        exact ⟨by simp [h1, resumes_append, resumes_cons, isResume, hw'], by simp [Spec.next, upd_other _ _ this, h2]⟩

/-- What is known when wait `w` ends. -/
theorem ended (ops : List (Op α)) (pre mid post : List (Ev α)) (w th th' : Nat) (k : Kind) (t now : Nat) (r : Option α) (ie : Bool)
    (h : (exec ops).log = pre ++ .awaited w th k t :: (mid ++ .resumed w th' r now ie :: post)) :
    th' = th ∧ ie = false ∧ resumes w mid = 0 ∧ resumes w post = 0 ∧
    (match r with
     | some a => (Spec.after pre).alive = true ∧ (emissions mid).head? = some a
     | none => (Spec.after pre).alive = false ∨
        ((Spec.after (pre ++ .awaited w th k t :: mid)).alive = true ∧ 0 ≤ k.ms ∧ (t : Int) + k.ms ≤ now)) := by
  have hl := (inv_exec ops).legal
  have h2 : (exec ops).log = (pre ++ .awaited w th k t :: mid) ++ .resumed w th' r now ie :: post := by rw [h]; simp
  have hok : Spec.ok (Spec.after (pre ++ .awaited w th k t :: mid)) _ := hl _ _ post h2
  have hp : Legal Spec.next Spec.ok {} (pre ++ .awaited w th k t :: mid) := by rw [h2] at hl; exact hl.prefix
  have hall : Legal Spec.next Spec.ok {} (pre ++ .awaited w th k t :: (mid ++ .resumed w th' r now ie :: post)) := by
    rw [h] at hl; exact hl
  have hcount : resumes w (mid ++ .resumed w th' r now ie :: post) ≤ 1 := by
    rcases track w th k t pre _ hall with ⟨_, e, _⟩ | ⟨e, _⟩ <;> omega
  have hc : resumes w (mid ++ .resumed w th' r now ie :: post) = resumes w mid + (resumes w post + 1) := by
    simp [resumes_append, resumes_cons, isResume]
  rcases track w th k t pre mid hp with ⟨_, e, hph⟩ | ⟨_, hph⟩
  · simp only [Spec.ok, hph] at hok
    obtain ⟨a1, a2, a3⟩ := hok
    refine ⟨a1, a2, e, by omega, ?_⟩
    cases r with
    | some a => simpa using a3
    | none => simpa using a3
  · simp only [Spec.ok, hph] at hok

/-! ### C27 -/

/-- `co_await qCoro(obj, signal)` continues with `some a` only if `a` are the arguments of the first emission after the
await began. -/
theorem C27_first_emission (ops : List (Op α)) (pre mid post : List (Ev α)) (w th th' : Nat) (k : Kind) (t now : Nat) (a : α) (ie : Bool)
    (h : (exec ops).log = pre ++ .awaited w th k t :: (mid ++ .resumed w th' (some a) now ie :: post)) :
    (emissions mid).head? = some a := (ended ops pre mid post w th th' k t now (some a) ie h).2.2.2.2.2

/-- It is resumed at most once, whatever is emitted afterwards. -/
theorem C27_once (ops : List (Op α)) (w : Nat) : resumes w (exec ops).log ≤ 1 := by
  have hl := (inv_exec ops).legal
  have key : ∀ l : List (Ev α), Legal Spec.next Spec.ok {} l → (Spec.after l).ph w = .unborn ∧ resumes w l = 0 ∨ (∃ pre th k t mid, l = pre ++ .awaited w th k t :: mid ∧ resumes w pre = 0) := by
    intro l
    induction l using snocInd with
    | nil => intro _; left; exact ⟨rfl, rfl⟩
    | snoc l e ih =>
      intro hL
      rcases ih hL.prefix with ⟨h1, h2⟩ | ⟨pre, th, k, t, mid, h1, h2⟩
      · have hok : Spec.ok (Spec.after l) e := hL l e [] rfl
        cases e with
        | awaited w' th' k' t' =>
          by_cases hw : w = w'
          · subst hw; right; exact ⟨l, th', k', t', [], rfl, h2⟩
          · left; rw [Spec.after_snoc]
            exact ⟨by simp [Spec.next, upd_other _ _ hw, h1], by simpa [resumes_append, resumes_cons, isResume] using h2⟩
        | emitted th' a => left; rw [Spec.after_snoc]; exact ⟨by simp [Spec.next, h1, Ph.saw], by simpa [resumes_append, resumes_cons, isResume] using h2⟩
        | destroyed => left; rw [Spec.after_snoc]; exact ⟨by simp [Spec.next, h1], by simpa [resumes_append, resumes_cons, isResume] using h2⟩
        | resumed w' th' r now ie =>
          have hw : w ≠ w' := by rintro rfl; simp [Spec.ok, h1] at hok
          have hw' : (w' == w) = false := beq_false_of_ne (Ne.symm hw)
          left; rw [Spec.after_snoc]
          refine ⟨by simp [Spec.next, upd_other _ _ hw, h1], ?_⟩
          have : resumes w (l ++ [Ev.resumed w' th' r now ie]) = resumes w l + 0 := by simp [resumes_append, resumes_cons, isResume, hw']
          rw [this, h2]
      · right; exact ⟨pre, th, k, t, mid ++ [e], by rw [h1]; simp, h2⟩
  rcases key _ hl with ⟨_, e⟩ | ⟨pre, th, k, t, mid, h1, h2⟩
  · omega
  · rw [h1] at hl ⊢
    have hc : resumes w (pre ++ Ev.awaited w th k t :: mid) = resumes w pre + resumes w mid := by
      simp [resumes_append, resumes_cons, isResume]
    rcases track w th k t pre mid hl with ⟨_, e, _⟩ | ⟨e, _⟩ <;> omega

theorem process_shrinks (s : State α) (h : Inv s) (hu : s.ub = none) (th : Nat) :
    (step s (.process th)).ub = none ∧ ((step s (.process th)).posted th).length ≤ (s.posted th).length - 1 := by
  unfold step
  simp only [hu, Option.isSome_none, Bool.false_eq_true, if_false]
  split
  · rename_i hp; simp [hp, hu]
  · rename_i w a rest hp
    have hm := h.post th (w, a) (by rw [hp]; simp)
    unfold State.slot
    dsimp only
    rw [if_pos hm.1]
    unfold State.resume
    simp only [upd_same]
    split
    · rename_i hc; simp at hc
    · simp only [State.emit, hp, upd_same]
      refine ⟨trivial, ?_⟩
      have := List.length_filter_le (fun p : Nat × α => p.1 != w) rest
      simpa using this

theorem log_grows (s : State α) (op : Op α) : ∃ l, (step s op).log = s.log ++ l := by
  have hres : ∀ (s : State α) w th ie, ∃ l, (s.resume w th ie).log = s.log ++ l := by
    intro s w th ie; unfold State.resume; dsimp only; split <;> exact ⟨_, rfl⟩
  have hslot : ∀ (s : State α) w a th ie, ∃ l, (s.slot w a th ie).log = s.log ++ l := by
    intro s w a th ie; unfold State.slot; dsimp only; split
    · obtain ⟨l, hl⟩ := hres ({ s with ws := upd s.ws w { s.ws w with timer := (if (s.ws w).hasTimer then none else (s.ws w).timer), conn := false, result := some a } } : State α) w th ie
      exact ⟨l, hl⟩
    · exact ⟨[], by simp⟩
  unfold step
  split
  · exact ⟨[], by simp⟩
  cases op with
  | await th k =>
    dsimp only; split
    · obtain ⟨l, hl⟩ := hres ({ ({ s with nw := s.nw + 1 } : State α).emit (.awaited s.nw th k s.now) with ws := upd s.ws s.nw { kind := k, thread := th, waiting := true, hasTimer := decide (k.ms > -1) } } : State α) s.nw th false
      exact ⟨.awaited s.nw th k s.now :: l, by rw [show s.log ++ Ev.awaited s.nw th k s.now :: l = (s.log ++ [.awaited s.nw th k s.now]) ++ l by simp]; exact hl⟩
    · exact ⟨[.awaited s.nw th k s.now], rfl⟩
  | emit th a =>
    dsimp only; split
    · rw [emit_fold _ _ _ List.nodup_range]; exact ⟨[.emitted th a], rfl⟩
    · exact ⟨[], by simp⟩
  | process th =>
    dsimp only; split
    · exact ⟨[], by simp⟩
    · rename_i w a rest hp
      exact hslot ({ s with posted := upd s.posted th rest } : State α) w a th false
  | time d => exact ⟨[], by simp⟩
  | fire w =>
    dsimp only; split
    · exact ⟨[], by simp⟩
    · split
      · split
        · exact hres ({ s with ws := upd (upd s.ws w { s.ws w with timer := none }) w { (upd s.ws w { s.ws w with timer := none }) w with conn := false } } : State α) w _ false
        · exact ⟨[], by simp⟩
      · exact ⟨[], by simp⟩
  | destroy =>
    dsimp only; split
    · exact ⟨[.destroyed], rfl⟩
    · exact ⟨[], by simp⟩

/-- Nothing is lost: once the signal was emitted after the await began, the coroutine is continued as soon as the event
loop of its thread has delivered what was posted to it so far. -/
theorem C27_delivered (ops : List (Op α)) (hu : (exec ops).ub = none) (pre mid : List (Ev α)) (w th : Nat) (k : Kind) (t : Nat)
    (h : (exec ops).log = pre ++ .awaited w th k t :: mid) (hem : emissions mid ≠ [])
    (n : Nat) (hn : ((exec ops).posted th).length ≤ n) :
    resumes w (exec (ops ++ List.replicate n (.process th))).log = 1 := by
  have drain : ∀ n, (exec (ops ++ List.replicate n (.process th))).ub = none ∧
      ((exec (ops ++ List.replicate n (.process th))).posted th).length ≤ ((exec ops).posted th).length - n ∧
      ∃ l, (exec (ops ++ List.replicate n (.process th))).log = (exec ops).log ++ l ∧ emissions l = [] := by
    intro n
    induction n with
    | zero => exact ⟨by simpa using hu, by simp, [], by simp, rfl⟩
    | succ n ih =>
      have e : ops ++ List.replicate (n + 1) (Op.process th) = (ops ++ List.replicate n (.process th)) ++ [.process th] := by
        rw [List.replicate_succ']; simp
      rw [e, exec_snoc]
      have hs := process_shrinks (exec (ops ++ List.replicate n (.process th))) (inv_exec _) ih.1 th
      obtain ⟨l, hl, hle⟩ := ih.2.2
      obtain ⟨l2, hl2⟩ := log_grows (exec (ops ++ List.replicate n (.process th))) (.process th)
      refine ⟨hs.1, by omega, l ++ l2, by rw [hl2, hl]; simp, ?_⟩
      have he2 : emissions l2 = [] := by
        have hinv := inv_exec (ops ++ List.replicate n (.process th))
        revert hl2
        generalize exec (ops ++ List.replicate n (.process th)) = s at *
        intro hl2
        unfold step at hl2
        simp only [ih.1, Option.isSome_none, Bool.false_eq_true, if_false] at hl2
        split at hl2
        · simp at hl2; subst hl2; rfl
        · rename_i w' a rest hp
          have hm := hinv.post th (w', a) (by rw [hp]; simp)
          unfold State.slot at hl2
          dsimp only at hl2
          rw [if_pos hm.1] at hl2
          unfold State.resume at hl2
          dsimp only at hl2
          split at hl2 <;> (simp [State.emit] at hl2; subst hl2; rfl)
      rw [emissions_append, hle, he2]; rfl
  obtain ⟨hu', hlen, l, hl, hle⟩ := drain n
  have hinv := inv_exec (ops ++ List.replicate n (.process th))
  generalize exec (ops ++ List.replicate n (.process th)) = s at *
  have hp : s.posted th = [] := by
    have : (s.posted th).length = 0 := by omega
    simpa using this
  rw [h] at hl
  have hl' : s.log = pre ++ .awaited w th k t :: (mid ++ l) := by rw [hl]; simp
  have hleg := hinv.legal
  rw [hl'] at hleg
  have hrel := hinv.rel w
  rcases track w th k t pre (mid ++ l) hleg with ⟨_, e, hph⟩ | ⟨e, _⟩
  · rw [hl', hph] at hrel
    have := hrel.2.2.2.2.2.2.1
    rw [hp] at this
    rw [emissions_append] at this
    simp [mine] at this
    exact absurd this.1 hem
  · rw [hl']
    have hpre : resumes w pre = 0 := by
      have := C27_once (ops ++ List.replicate 0 (.process th)) w
      simp at this
      rw [h] at this
      have hok : Spec.ok (Spec.after pre) (.awaited w th k t) := hleg pre _ _ rfl
      have hunb : (Spec.after pre).ph w = .unborn := by
        simp only [Spec.ok] at hok; split at hok
        · assumption
        · exact absurd hok id
      clear this
      have hlp : Legal Spec.next Spec.ok {} pre := hleg.prefix
      clear hleg hrel hl hl' h hok e hinv drain hlen hu'
      suffices key : ∀ l : List (Ev α), Legal Spec.next Spec.ok {} l → (resumes w l = 0 ∨ ∃ l1 l2, l = l1 ++ l2 ∧ (Spec.after l1).ph w = .over) ∧
          ((∃ l1 l2, l = l1 ++ l2 ∧ (Spec.after l1).ph w = .over) → (Spec.after l).ph w = .over) by
        obtain ⟨k1, k2⟩ := key pre hlp
        rcases k1 with k1 | k1
        · exact k1
        · have := k2 k1; rw [hunb] at this; cases this
      intro l
      induction l using snocInd with
      | nil => intro _; refine ⟨.inl rfl, ?_⟩; rintro ⟨l1, l2, e, h1⟩; simp at e; obtain ⟨rfl, rfl⟩ := e; exact h1
      | snoc l e ih =>
        intro hL
        obtain ⟨i1, i2⟩ := ih hL.prefix
        have hok : Spec.ok (Spec.after l) e := hL l e [] rfl
        have over : (Spec.after l).ph w = .over → (Spec.after (l ++ [e])).ph w = .over := by
          intro ho; rw [Spec.after_snoc]
          cases e with
          | awaited w' th' k' t' =>
            have : w ≠ w' := by rintro rfl; simp [Spec.ok, ho] at hok
            simp [Spec.next, upd_other _ _ this, ho]
          | emitted th' a => simp [Spec.next, ho, Ph.saw]
          | destroyed => simp [Spec.next, ho]
          | resumed w' th' r now ie =>
            have : w ≠ w' := by rintro rfl; simp [Spec.ok, ho] at hok
            simp [Spec.next, upd_other _ _ this, ho]
        constructor
        · by_cases hr : isResume w e = true
          · right; refine ⟨l ++ [e], [], by simp, ?_⟩
            cases e <;> simp [isResume] at hr
            subst hr; rw [Spec.after_snoc]; simp [Spec.next]
          · rcases i1 with i1 | ⟨l1, l2, e1, e2⟩
            · left; simp [resumes_append, resumes_cons, hr] at i1 ⊢; exact i1
            · exact .inr ⟨l1, l2 ++ [e], by rw [e1]; simp, e2⟩
        · rintro ⟨l1, l2, e1, e2⟩
          rcases List.append_eq_append_iff.mp e1.symm with ⟨as, h1, h2⟩ | ⟨bs, h1, h2⟩
          · exact over (i2 ⟨l1, as, h1, e2⟩)
          · cases bs with
            | nil => simp at h1; subst h1; exact over e2
            | cons b bs =>
              simp at h2; obtain ⟨rfl, h3, rfl⟩ := h2; subst h3; rw [← h1]; exact e2
    have hc : resumes w (pre ++ Ev.awaited w th k t :: (mid ++ l)) = resumes w pre + resumes w (mid ++ l) := by
      simp [resumes_append, resumes_cons, isResume]
    omega

/-! ### C28 -/

/-- A wait that ends without a result on an object that existed when it began, ended by its timeout: the timeout is
non-negative, and at least that time has passed; the object still exists. -/
theorem C28_nullopt_only_on_timeout (ops : List (Op α)) (pre mid post : List (Ev α)) (w th th' : Nat) (k : Kind) (t now : Nat) (ie : Bool)
    (h : (exec ops).log = pre ++ .awaited w th k t :: (mid ++ .resumed w th' none now ie :: post))
    (hal : (Spec.after pre).alive = true) : 0 ≤ k.ms ∧ (t : Int) + k.ms ≤ now := by
  have := (ended ops pre mid post w th th' k t now none ie h).2.2.2.2
  rw [hal] at this
  rcases this with e | e
  · cases e
  · exact e.2

/-- Exactly one of {result, nothing} is delivered, at most once. -/
theorem C28_exactly_one (ops : List (Op α)) (pre mid post : List (Ev α)) (w th th' : Nat) (k : Kind) (t now : Nat) (r : Option α) (ie : Bool)
    (h : (exec ops).log = pre ++ .awaited w th k t :: (mid ++ .resumed w th' r now ie :: post)) :
    resumes w mid = 0 ∧ resumes w post = 0 :=
  ⟨(ended ops pre mid post w th th' k t now r ie h).2.2.1, (ended ops pre mid post w th th' k t now r ie h).2.2.2.1⟩

/-- With a negative timeout (in particular for the overload without one) a wait on an existing object never ends
without a result. -/
theorem C28_negative_never_times_out (ops : List (Op α)) (pre mid post : List (Ev α)) (w th th' : Nat) (k : Kind) (t now : Nat) (ie : Bool)
    (hk : k.ms < 0) (hal : (Spec.after pre).alive = true) :
    (exec ops).log ≠ pre ++ .awaited w th k t :: (mid ++ .resumed w th' none now ie :: post) := by
  intro h
  have := C28_nullopt_only_on_timeout ops pre mid post w th th' k t now ie h hal
  omega

/-- If the timeout has elapsed, the wait is still pending and the object exists, the timer continues the coroutine with
nothing, on its thread, even if emissions were posted but not yet delivered. -/
theorem C28_timeout_ends_wait (ops : List (Op α)) (hu : (exec ops).ub = none) (pre mid : List (Ev α)) (w th : Nat) (ms : Int) (t : Nat)
    (h : (exec ops).log = pre ++ .awaited w th (.timed ms) t :: mid) (hr : resumes w mid = 0) (hms : 0 ≤ ms)
    (hal : (exec ops).alive = true) (hnow : (t : Int) + ms ≤ (exec ops).now) :
    (exec (ops ++ [.fire w])).log = (exec ops).log ++ [.resumed w th none (exec ops).now false] := by
  have hinv := inv_exec ops
  rw [exec_snoc]
  generalize exec ops = s at *
  have hleg := hinv.legal
  rw [h] at hleg
  have hrel := hinv.rel w
  rcases track w th (.timed ms) t pre mid hleg with ⟨_, e, hph⟩ | ⟨e, _⟩
  · rw [h, hph] at hrel
    obtain ⟨a1, a2, a3, a4, a5, a6, a7, a8, a9, a10, a11⟩ := hrel
    have hti : (s.ws w).hasTimer = true := by rw [a6]; simp [Kind.ms]; omega
    have hd := a11 hal hti
    have htc : (s.ws w).timerConn = true := by rw [a9, hal, hti]; rfl
    have hk : ((ms.toNat : Nat) : Int) = ms := Int.toNat_of_nonneg hms
    have hle : t + (Kind.timed ms).ms.toNat ≤ s.now := by simp only [Kind.ms]; omega
    unfold step
    simp only [hu, hd, Option.isSome_none, Bool.false_eq_true, if_false]
    rw [if_pos hle, if_pos htc]
    unfold State.resume
    simp [State.emit, a4, a5, a3]
  · omega

/-! ### C29 -/

/-- Awaiting a signal of a null or already destroyed object continues at once with nothing. -/
theorem C29_null_object (ops : List (Op α)) (hu : (exec ops).ub = none) (hal : (exec ops).alive = false) (th : Nat) (k : Kind) :
    (exec (ops ++ [.await th k])).log = (exec ops).log ++
      [.awaited (exec ops).nw th k (exec ops).now, .resumed (exec ops).nw th none (exec ops).now false] := by
  rw [exec_snoc]
  unfold step
  simp only [hu, hal, Option.isSome_none, Bool.false_eq_true, if_false, if_true]
  unfold State.resume
  simp only [upd_same]
  split <;> simp [State.emit]

/-- …and the overload without timeout then dereferences the empty optional: undefined behaviour (`qcorosignal.h:374`). -/
theorem C29_plain_null_is_ub (ops : List (Op α)) (hu : (exec ops).ub = none) (hal : (exec ops).alive = false) (th : Nat) :
    (exec (ops ++ [.await th .plain])).ub = some (.derefNullopt (exec ops).nw) := by
  rw [exec_snoc]
  unfold step
  simp only [hu, hal, Option.isSome_none, Bool.false_eq_true, if_false, if_true]
  unfold State.resume
  simp [State.emit]

/-- That is the only undefined behaviour there is. -/
theorem C29_only_ub (ops : List (Op α)) (w : Nat) (h : (exec ops).ub = some (.derefNullopt w)) :
    ∃ pre th t mid post now, (exec ops).log = pre ++ .awaited w th .plain t :: (mid ++ .resumed w th none now false :: post) ∧
      (Spec.after pre).alive = false := by
  revert h
  induction ops using snocInd with
  | nil => intro h; cases h
  | snoc l op ih =>
    have hinv := inv_exec l
    have hinv' := inv_exec (l ++ [op])
    rw [exec_snoc] at hinv' ⊢
    intro h
    obtain ⟨ext, hext⟩ := log_grows (exec l) op
    cases hub : (exec l).ub with
    | some u =>
      have e : step (exec l) op = exec l := by simp [step, hub]
      rw [e] at h ⊢
      exact ih h
    | none =>
    -- undefined behaviour arises in this step, by resuming a plain wait without result
    have hres : ∀ (s : State α) (w' th : Nat) (ie : Bool), s.ub = none → (s.resume w' th ie).ub = some (.derefNullopt w) →
        w' = w ∧ (s.ws w).kind = .plain ∧ (s.ws w).result = none ∧ (s.resume w' th ie).log = s.log ++ [.resumed w th none s.now ie] := by
      intro s w' th ie hs hr
      unfold State.resume at hr ⊢
      dsimp only at hr ⊢
      split at hr
      · rename_i hc
        simp at hr; subst hr
        rw [if_pos hc]
        have : (s.ws w').result = none := by simpa using hc.2
        exact ⟨rfl, hc.1, this, by simp [State.emit, this]⟩
      · simp [State.emit, hs] at hr
    generalize exec l = s at *
    unfold step at h
    simp only [hub, Option.isSome_none, Bool.false_eq_true, if_false] at h
    cases op with
    | time d => simp [hub] at h
    | destroy => dsimp only at h; split at h <;> simp [State.emit, hub] at h
    | emit th a =>
      dsimp only at h; split at h
      · rw [emit_fold _ _ _ List.nodup_range] at h; simp [State.emit, hub] at h
      · simp [hub] at h
    | await th k =>
      dsimp only at h; split at h
      · rename_i hal
        obtain ⟨e1, e2, e3, e4⟩ := hres _ _ _ _ (by simp [State.emit, hub]) h
        have e5 : k = .plain := by rw [← e1] at e2; simpa using e2
        subst e5
        refine ⟨s.log, th, s.now, [], [], s.now, ?_, ?_⟩
        · unfold step
          simp only [hub, Option.isSome_none, Bool.false_eq_true, if_false]
          rw [if_pos hal, e4]; simp [State.emit, e1]
        · rw [hinv.alive]; exact hal
      · simp [State.emit, hub] at h
    | process th =>
      dsimp only at h; split at h
      · simp [hub] at h
      · rename_i w' a rest hp
        have hm := hinv.post th (w', a) (by rw [hp]; simp)
        unfold State.slot at h
        dsimp only at h
        rw [if_pos hm.1] at h
        obtain ⟨e1, e2, e3, e4⟩ := hres _ _ _ _ (by simpa using hub) h
        subst e1; simp at e3
    | fire w' =>
      dsimp only at h; split at h
      · simp [hub] at h
      · rename_i d hd
        split at h
        · split at h
          · rename_i htc
            obtain ⟨e1, e2, e3, e4⟩ := hres _ _ _ _ (by simpa using hub) h
            subst e1
            have hrel := hinv.rel w'
            have hk : (s.ws w').kind = .plain := by simpa using e2
            cases hp : (Spec.after s.log).ph w' with
            | unborn => rw [hp] at hrel; have := hrel.2.2.1; rw [hd] at this; cases this
            | over => rw [hp] at hrel; have := hrel.2.2.1; rw [hd] at this; cases this
            | waiting th k t0 ems dead =>
              rw [hp] at hrel
              obtain ⟨a1, a2, a3, a4, a5, a6, a7, a8, a9, a10, a11⟩ := hrel
              have := (a10 d hd).1
              rw [a6, ← a4, hk] at this
              simp [Kind.ms] at this
          · simp [hub] at h
        · simp [hub] at h

/-- Counterexample to C29: if the object is destroyed while a wait with a timeout is pending and nothing was emitted,
the wait **never** ends, however much time passes (the timeout connection uses the object as context,
`qcorosignal.h:113`, so it is gone with it). -/
theorem C29_destroyed_never_ends (ops : List (Op α)) (pre mid post : List (Ev α)) (w th : Nat) (k : Kind) (t : Nat)
    (h : (exec ops).log = pre ++ .awaited w th k t :: (mid ++ .destroyed :: post))
    (hr : resumes w mid = 0) (hem : emissions mid = []) : resumes w post = 0 := by
  have hl := (inv_exec ops).legal
  rw [h] at hl
  have h0 : Legal Spec.next Spec.ok {} (pre ++ .awaited w th k t :: mid) := by
    have : pre ++ Ev.awaited w th k t :: (mid ++ .destroyed :: post) = (pre ++ Ev.awaited w th k t :: mid) ++ (.destroyed :: post) := by simp
    rw [this] at hl; exact hl.prefix
  have hal : (Spec.after (pre ++ .awaited w th k t :: mid)).alive = true := by
    have : pre ++ Ev.awaited w th k t :: (mid ++ .destroyed :: post) = (pre ++ Ev.awaited w th k t :: mid) ++ .destroyed :: post := by simp
    exact hl _ _ _ this
  have halpre : (Spec.after pre).alive = true := by
    have : ∀ (l : List (Ev α)) (S : Spec α), (l.foldl Spec.next S).alive = true → S.alive = true := by
      intro l; induction l with
      | nil => exact fun _ h => h
      | cons e l ih => intro S h; have h' := ih _ h; clear h; cases e <;> simp_all [Spec.next]
    have h2 : ((Ev.awaited w th k t :: mid).foldl Spec.next (Spec.after pre)).alive = true := by
      simpa [Spec.after] using hal
    exact this _ _ h2
  have hph : (Spec.after (pre ++ .awaited w th k t :: mid)).ph w = .waiting th k t [] false := by
    rcases track w th k t pre mid h0 with ⟨_, _, e⟩ | ⟨e, _⟩
    · rw [e, hem, halpre]; rfl
    · omega
  have key : ∀ l, Legal Spec.next Spec.ok {} (pre ++ .awaited w th k t :: (mid ++ .destroyed :: l)) → resumes w l = 0 ∧
      (Spec.after (pre ++ .awaited w th k t :: (mid ++ .destroyed :: l))).ph w = .waiting th k t [] false ∧
      (Spec.after (pre ++ .awaited w th k t :: (mid ++ .destroyed :: l))).alive = false := by
    intro l
    induction l using snocInd with
    | nil =>
      intro _
      have : pre ++ Ev.awaited w th k t :: (mid ++ [.destroyed]) = (pre ++ Ev.awaited w th k t :: mid) ++ [.destroyed] := by simp
      rw [this, Spec.after_snoc]; exact ⟨rfl, hph, rfl⟩
    | snoc l e ih =>
      intro hL
      have hh : pre ++ Ev.awaited w th k t :: (mid ++ .destroyed :: (l ++ [e])) = (pre ++ Ev.awaited w th k t :: (mid ++ .destroyed :: l)) ++ [e] := by simp
      rw [hh] at hL ⊢
      obtain ⟨i1, i2, i3⟩ := ih hL.prefix
      have hok : Spec.ok (Spec.after (pre ++ Ev.awaited w th k t :: (mid ++ .destroyed :: l))) e := hL _ e [] rfl
      rw [Spec.after_snoc]
      generalize Spec.after (pre ++ Ev.awaited w th k t :: (mid ++ .destroyed :: l)) = S at *
      cases e with
      | awaited w' th' k' t' =>
        have : w ≠ w' := by rintro rfl; simp [Spec.ok, i2] at hok
        exact ⟨by simpa [resumes_append, resumes_cons, isResume] using i1, by simp [Spec.next, upd_other _ _ this, i2], by simp [Spec.next, i3]⟩
      | emitted th' a => simp [Spec.ok, i3] at hok
      | destroyed => simp [Spec.ok, i3] at hok
      | resumed w' th' r now ie =>
        have : w ≠ w' := by
          rintro rfl; simp only [Spec.ok, i2] at hok
          cases r <;> simp [i3] at hok
        have hw' : (w' == w) = false := beq_false_of_ne (Ne.symm this)
        refine ⟨?_, by simp [Spec.next, upd_other _ _ this, i2], by simp [Spec.next, i3]⟩
        have hc : resumes w (l ++ [Ev.resumed w' th' r now ie]) = resumes w l := by simp [resumes_append, resumes_cons, isResume, hw']
        rw [hc, i1]
  exact (key post hl).1

/-! ### C30 -/

/-- Whatever thread emits the signal, the coroutine continues on the thread that executed the co_await, and not inside
the emission. -/
theorem C30_thread (ops : List (Op α)) (pre mid post : List (Ev α)) (w th th' : Nat) (k : Kind) (t now : Nat) (r : Option α) (ie : Bool)
    (h : (exec ops).log = pre ++ .awaited w th k t :: (mid ++ .resumed w th' r now ie :: post)) : th' = th ∧ ie = false :=
  ⟨(ended ops pre mid post w th th' k t now r ie h).1, (ended ops pre mid post w th th' k t now r ie h).2.1⟩

/-- A continued wait was begun. -/
theorem C30_begun (ops : List (Op α)) (pre post : List (Ev α)) (w th : Nat) (now : Nat) (r : Option α) (ie : Bool)
    (h : (exec ops).log = pre ++ .resumed w th r now ie :: post) : ∃ k t, Ev.awaited w th k t ∈ pre := by
  have hl := (inv_exec ops).legal
  have hok : Spec.ok (Spec.after pre) _ := hl pre _ post h
  have key : ∀ l : List (Ev α), ∀ th k t ems d, (Spec.after l).ph w = .waiting th k t ems d → Ev.awaited w th k t ∈ l := by
    intro l
    induction l using snocInd with
    | nil => intro th k t ems d e; cases e
    | snoc l e ih =>
      intro th k t ems d hp
      rw [Spec.after_snoc] at hp
      cases e with
      | awaited w' th' k' t' =>
        by_cases hw : w = w'
        · subst hw; simp [Spec.next] at hp; simp [hp.1, hp.2.1, hp.2.2.1]
        · simp [Spec.next, upd_other _ _ hw] at hp; simp [ih _ _ _ _ _ hp]
      | emitted th' a =>
        simp only [Spec.next] at hp
        cases hq : (Spec.after l).ph w with
        | waiting th2 k2 t2 ems2 d2 =>
          rw [hq] at hp; simp [Ph.saw] at hp
          have := ih _ _ _ _ _ hq
          simp [← hp.1, ← hp.2.1, ← hp.2.2.1, this]
        | unborn => rw [hq] at hp; cases hp
        | over => rw [hq] at hp; cases hp
      | destroyed => simp [ih _ _ _ _ _ hp]
      | resumed w' th' r now ie =>
        by_cases hw : w = w'
        · subst hw; simp [Spec.next] at hp
        · simp [Spec.next, upd_other _ _ hw] at hp; simp [ih _ _ _ _ _ hp]
  simp only [Spec.ok] at hok
  split at hok
  · rename_i th' k t0 ems d hp
    obtain ⟨rfl, _⟩ := hok
    exact ⟨k, t0, key pre _ _ _ _ _ hp⟩
  · exact absurd hok id

/-! ### C59, signal waits: the timer -/

/-- A pending wait has an armed timer iff its timeout is non-negative (while the object exists); the timer is due
exactly the timeout after the wait began. -/
theorem C59_signal_timer (ops : List (Op α)) (pre mid : List (Ev α)) (w th : Nat) (k : Kind) (t : Nat)
    (h : (exec ops).log = pre ++ .awaited w th k t :: mid) (hr : resumes w mid = 0) (hal : (exec ops).alive = true) :
    ((exec ops).ws w).timer = if 0 ≤ k.ms then some (t + k.ms.toNat) else none := by
  have hinv := inv_exec ops
  generalize exec ops = s at *
  have hleg := hinv.legal
  rw [h] at hleg
  have hrel := hinv.rel w
  rcases track w th k t pre mid hleg with ⟨_, e, hph⟩ | ⟨e, _⟩
  · rw [h, hph] at hrel
    obtain ⟨a1, a2, a3, a4, a5, a6, a7, a8, a9, a10, a11⟩ := hrel
    by_cases hk : 0 ≤ k.ms
    · rw [if_pos hk]; exact a11 hal (by rw [a6]; simp; omega)
    · rw [if_neg hk]
      cases ht : (s.ws w).timer with
      | none => rfl
      | some d => have := (a10 d ht).1; rw [a6] at this; simp at this; omega
  · omega

/-! ### Concrete cases -/

/-- Two emissions from thread 2 before thread 1 delivers: the wait on thread 1 gets the first one, once. -/
example : (exec [.await 1 .plain, .emit 2 (10 : Nat), .emit 2 20, .process 1, .process 1]).log =
    [.awaited 0 1 .plain 0, .emitted 2 10, .emitted 2 20, .resumed 0 1 (some 10) 0 false] := by decide

/-- Timeout with an emission posted but not delivered. -/
example : (exec [.await 1 (.timed 5), .time 5, .emit 2 (10 : Nat), .fire 0, .process 1]).log =
    [.awaited 0 1 (.timed 5) 0, .emitted 2 10, .resumed 0 1 none 5 false] := by decide

/-- The object is destroyed while a wait with timeout is pending. -/
example : (exec [.await 1 (.timed 5), .destroy, .time 100, .fire 0, .process 1]).log =
    ([.awaited 0 1 (.timed 5) 0, .destroyed] : List (Ev Nat)) := by decide

end QCoro.Sig
