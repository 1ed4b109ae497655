import Verif.Generator.Main
/-
Properties C19–C22 (Generator).  `exec P ops` is the state after an arbitrary history: `ops` interleaves arbitrary
API calls of the main program with single steps of running bodies; `P` gives arbitrary bodies.
-/
set_option linter.unusedSimpArgs false
namespace QCoro.Gen
variable {σ V E : Type}

/-! ### Refinement: C19, C20, C21, C22 at once -/

/-- Every history of generator operations obeys the abstract machine `Spec` (see `Spec.ok`): values are reported in
order, one per advance, the end exactly when the body returned, exceptions exactly when and where they are thrown. -/
theorem C19_refines (P : Prog σ V E) (ops : List (Op σ V)) : Legal Spec.next Spec.ok {} (exec P ops).log :=
  (good_exec P ops).legal

/-- Whenever control is with anybody (no undefined behaviour so far), every co_yield, return and throw of a body has
already been reported to the begin()/++ that was waiting for it. -/
theorem C19_reported (P : Prog σ V E) (ops : List (Op σ V)) (hu : (exec P ops).ub = none) (g : Nat) :
    (∀ v, (Spec.after (exec P ops).log).ph g ≠ .offered v) ∧ (Spec.after (exec P ops).log).ph g ≠ .ended ∧
    (∀ e, (Spec.after (exec P ops).log).ph g ≠ .failed e) := by
  have h := ((good_exec P ops).inv hu).ph
  rw [h]
  refine ⟨fun v => ?_, ?_, fun e => ?_⟩ <;>
    (dsimp only; unfold absPh; split <;> try simp) <;> (split <;> try simp) <;> (split <;> simp)

/-! ### The range-for loop -/

/-- API calls of the main program in a schedule. -/
def mains (ops : List (Op σ V)) : List (Api σ V) := ops.filterMap (fun | .main a => some a | .tick => none)

/-- Values read through iterators. -/
def reads (log : List (Ev V E)) : List V := log.filterMap (fun | .read _ v => some v | _ => none)

theorem mains_append (a b : List (Op σ V)) : mains (a ++ b) = mains a ++ mains b := by simp [mains]
theorem reads_append (a b : List (Ev V E)) : reads (a ++ b) = reads a ++ reads b := by simp [reads]

/-- `n` rounds of the loop body `*it; ++it`. -/
def rounds : Nat → List (Api σ V)
  | 0 => []
  | n + 1 => .deref 0 :: .inc 0 :: rounds n

/-- How the loop ends: end() if the body returned, the exception if it threw. -/
def LoopEnd (f : Option E) (last : Ev V E) (it : Nat → Option (Option Nat)) : Prop :=
  (f = none → ∃ i, last = .gotEnd 0 i ∧ it i = some none) ∧ (∀ e, f = some e → ∃ c, last = .gotExc 0 c e)

theorem loop_from (P : Prog σ V E) {b : σ} {r : Resp V E} {vs : List V} {f : Option E} (hE : Emits P b r vs f) :
    ∀ (s : State σ V E) (c : Call), s.ub = none → s.stack = [(0, c)] →
      (s.fr 0).st = some b → (s.fr 0).inp = r → (s.fr 0).status = .running → (s.fr 0).exc = none →
      (s.fr 0).freed = false → s.obj 0 = .live (some 0) →
      (c = .begin 0 ∧ s.ni = 0 ∨ c = .inc 0 ∧ s.it 0 = some (some 0)) →
      ∃ ops, mains ops = rounds vs.length ∧ reads (ops.foldl (step P) s).log = reads s.log ++ vs ∧
        (ops.foldl (step P) s).ub = none ∧ (ops.foldl (step P) s).stack = [] ∧
        (∃ last, (ops.foldl (step P) s).log.getLast? = some last ∧
          LoopEnd f last (ops.foldl (step P) s).it) := by
  induction hE with
  | @work b r b' n vs f hn _ ih =>
    intro s c hu hs h1 h2 h3 h4 h5 h6 h7
    have hstep : step P s .tick = (((({ s with fr := upd s.fr 0 { s.fr 0 with st := some b', inp := .unit } } : State σ V E).emit (.ran 0)).emit (.work (some 0) n)).reply .unit) := by
      simp [step, hu, hs, h1, h2, hn, State.body, State.api, State.emit]
    obtain ⟨ops, m1, m2, m3, m4, m5⟩ := ih (step P s .tick) c (by rw [hstep, State.reply_ub]; exact hu)
      (by rw [hstep]; simp [State.reply, State.emit, hs]) (by rw [hstep]; simp [State.reply, State.emit, hs])
      (by rw [hstep]; simp [State.reply, State.emit, hs]) (by rw [hstep]; simp [State.reply, State.emit, hs, h3])
      (by rw [hstep]; simp [State.reply, State.emit, hs, h4]) (by rw [hstep]; simp [State.reply, State.emit, hs, h5])
      (by rw [hstep]; simp [State.reply, State.emit, hs, h6])
      (by rw [hstep]; simpa [State.reply, State.emit, hs] using h7)
    refine ⟨.tick :: ops, by simpa [mains] using m1, ?_, m3, m4, m5⟩
    show reads (ops.foldl (step P) (step P s .tick)).log = _
    rw [m2, hstep]
    simp [State.reply, State.emit, hs, reads]
  | @yield b r b' v vs f hn _ ih =>
    intro s c hu hs h1 h2 h3 h4 h5 h6 h7
    -- after the yield: iterator 0 refers to generator 0, value v
    have hA : ∃ s', step P s .tick = s' ∧ s'.ub = none ∧ s'.stack = [] ∧ (s'.fr 0).st = some b' ∧
        (s'.fr 0).status = .yielded ∧ (s'.fr 0).value = some v ∧ (s'.fr 0).exc = none ∧ (s'.fr 0).freed = false ∧
        s'.obj 0 = .live (some 0) ∧ s'.it 0 = some (some 0) ∧ reads s'.log = reads s.log := by
      refine ⟨_, rfl, ?_⟩
      rcases h7 with ⟨rfl, h7⟩ | ⟨rfl, h7⟩
      · simp [step, hu, hs, h1, h2, hn, State.body, State.emit, State.after, State.afterBegin, h6, h5, State.reply, h7, reads, h4]
      · simp [step, hu, hs, h1, h2, hn, State.body, State.emit, State.after, State.afterInc, h6, h5, State.reply, h7, reads, h4]
    obtain ⟨s1, e1, a1, a2, a3, a4, a5, a6, a7, a8, a9, a10⟩ := hA
    have hB : ∃ s2, step P (step P s1 (.main (.deref 0))) (.main (.inc 0)) = s2 ∧ s2.ub = none ∧ s2.stack = [(0, .inc 0)] ∧
        (s2.fr 0).st = some b' ∧ (s2.fr 0).inp = .resumed v ∧ (s2.fr 0).status = .running ∧ (s2.fr 0).exc = none ∧
        (s2.fr 0).freed = false ∧ s2.obj 0 = .live (some 0) ∧ s2.it 0 = some (some 0) ∧
        reads s2.log = reads s.log ++ [v] := by
      refine ⟨_, rfl, ?_⟩
      simp [step, a1, a2, a3, a4, a5, a6, a7, a8, a9, State.api, State.resume, State.emit, State.reply, reads_append, a10]
      simp [reads]
    obtain ⟨s2, e2, b1, b2, b3, b4, b5, b6, b7, b8, b9, b10⟩ := hB
    obtain ⟨ops, m1, m2, m3, m4, m5⟩ := ih s2 (.inc 0) b1 b2 b3 b4 b5 b6 b7 b8 (.inr ⟨rfl, b9⟩)
    refine ⟨.tick :: .main (.deref 0) :: .main (.inc 0) :: ops, ?_, ?_⟩
    · have m1' : List.filterMap (fun | .main a => some a | .tick => none) ops = rounds (σ := σ) (V := V) vs.length := m1
      simp [mains, rounds, m1']
    · simp only [List.foldl_cons, e1, e2]
      refine ⟨by rw [m2, b10]; simp, m3, m4, m5⟩
  | @ret b r b' hn =>
    intro s c hu hs h1 h2 h3 h4 h5 h6 h7
    refine ⟨[.tick], by simp [mains, rounds], ?_⟩
    rcases h7 with ⟨rfl, h7⟩ | ⟨rfl, h7⟩
    · simp [step, hu, hs, h1, h2, hn, State.body, State.emit, State.after, State.afterBegin, h6, h5, State.reply, h7, reads, h4, LoopEnd]
    · simp [step, hu, hs, h1, h2, hn, State.body, State.emit, State.after, State.afterInc, h5, State.reply, h7, reads, h4, LoopEnd]
  | @throw b r b' e hn =>
    intro s c hu hs h1 h2 h3 h4 h5 h6 h7
    refine ⟨[.tick], by simp [mains, rounds], ?_⟩
    rcases h7 with ⟨rfl, h7⟩ | ⟨rfl, h7⟩
    · simp [step, hu, hs, h1, h2, hn, State.body, State.emit, State.after, State.afterBegin, h6, h5, State.reply, reads, h4, LoopEnd]
    · simp [step, hu, hs, h1, h2, hn, State.body, State.emit, State.after, State.afterInc, h5, State.reply, h7, reads, h4, LoopEnd]

/-- `for (auto &v : gen) use(v);` over a body that co_yields `vs` and returns: the loop reads exactly `vs`, then the
iterator equals end(); with a body that throws `e` after `vs`, the loop reads exactly `vs` and the next advance throws
`e`.  (The machine is deterministic: `ops` is the only schedule of that loop, up to trailing no-ops.) -/
theorem C19_for_loop (P : Prog σ V E) (b : σ) (vs : List V) (f : Option E) (hE : Emits P b .start vs f) :
    ∃ ops, mains ops = .create b :: .begin 0 :: rounds vs.length ∧ reads (exec P ops).log = vs ∧
      (exec P ops).ub = none ∧ (exec P ops).stack = [] ∧
      ∃ last, (exec P ops).log.getLast? = some last ∧
        LoopEnd f last (exec P ops).it := by
  have hB : ∃ s2, step P (step P ({} : State σ V E) (.main (.create b))) (.main (.begin 0)) = s2 ∧ s2.ub = none ∧
      s2.stack = [(0, .begin 0)] ∧
      (s2.fr 0).st = some b ∧ (s2.fr 0).inp = .start ∧ (s2.fr 0).status = .running ∧ (s2.fr 0).exc = none ∧
      (s2.fr 0).freed = false ∧ s2.obj 0 = .live (some 0) ∧ s2.ni = 0 ∧ reads s2.log = [] := by
    refine ⟨_, rfl, ?_⟩
    simp [step, State.api, State.resume, State.emit, State.reply, reads]
  obtain ⟨s2, e2, b1, b2, b3, b4, b5, b6, b7, b8, b9, b10⟩ := hB
  obtain ⟨ops, m1, m2, m3, m4, m5⟩ := loop_from P hE s2 (.begin 0) b1 b2 b3 b4 b5 b6 b7 b8 (.inl ⟨rfl, b9⟩)
  refine ⟨.main (.create b) :: .main (.begin 0) :: ops, ?_, ?_⟩
  · have m1' : List.filterMap (fun | .main a => some a | .tick => none) ops = rounds (σ := σ) (V := V) vs.length := m1
    simp [mains, m1']
  · simp only [exec, List.foldl_cons, e2]
    refine ⟨by rw [m2, b10]; simp, m3, m4, m5⟩

/-! ### Laziness -/

/-- Advances of generator `g` (begin() or ++ that resumed it). -/
def advs (g : Nat) (log : List (Ev V E)) : Nat := log.countP (fun | .adv g' _ _ => g' == g | _ => false)
/-- Segments the body of `g` completed: co_yields, return, throw. -/
def segs (g : Nat) (log : List (Ev V E)) : Nat :=
  log.countP (fun | .yielded g' _ => g' == g | .returned g' => g' == g | .raised g' _ => g' == g | _ => false)

def Ph.isRunning : Ph V E → Bool | .running => true | _ => false
def Ph.isGone : Ph V E → Bool | .gone => true | _ => false
@[simp] theorem Ph.isRunning_unborn : (Ph.unborn : Ph V E).isRunning = false := rfl
@[simp] theorem Ph.isGone_unborn : (Ph.unborn : Ph V E).isGone = false := rfl
@[simp] theorem Ph.isRunning_fresh : (Ph.fresh : Ph V E).isRunning = false := rfl
@[simp] theorem Ph.isGone_fresh : (Ph.fresh : Ph V E).isGone = false := rfl
@[simp] theorem Ph.isRunning_running : (Ph.running : Ph V E).isRunning = true := rfl
@[simp] theorem Ph.isGone_running : (Ph.running : Ph V E).isGone = false := rfl
@[simp] theorem Ph.isRunning_offered (v : V) : (Ph.offered v : Ph V E).isRunning = false := rfl
@[simp] theorem Ph.isGone_offered (v : V) : (Ph.offered v : Ph V E).isGone = false := rfl
@[simp] theorem Ph.isRunning_at (v : V) : (Ph.at v : Ph V E).isRunning = false := rfl
@[simp] theorem Ph.isGone_at (v : V) : (Ph.at v : Ph V E).isGone = false := rfl
@[simp] theorem Ph.isRunning_ended : (Ph.ended : Ph V E).isRunning = false := rfl
@[simp] theorem Ph.isGone_ended : (Ph.ended : Ph V E).isGone = false := rfl
@[simp] theorem Ph.isRunning_failed (e : E) : (Ph.failed e : Ph V E).isRunning = false := rfl
@[simp] theorem Ph.isGone_failed (e : E) : (Ph.failed e : Ph V E).isGone = false := rfl
@[simp] theorem Ph.isRunning_over : (Ph.over : Ph V E).isRunning = false := rfl
@[simp] theorem Ph.isGone_over : (Ph.over : Ph V E).isGone = false := rfl
@[simp] theorem Ph.isRunning_gone : (Ph.gone : Ph V E).isRunning = false := rfl
@[simp] theorem Ph.isGone_gone : (Ph.gone : Ph V E).isGone = true := rfl
theorem Ph.isRunning_iff (p : Ph V E) : p.isRunning = true ↔ p = .running := by cases p <;> simp [Ph.isRunning]
theorem Ph.isGone_iff (p : Ph V E) : p.isGone = true ↔ p = .gone := by cases p <;> simp [Ph.isGone]

theorem legal_counts (g : Nat) (log : List (Ev V E)) (h : Legal Spec.next Spec.ok {} log) :
    advs g log = segs g log + ((Spec.after log).ph g).isRunning.toNat := by
  induction log using snocInd with
  | nil => simp [advs, segs, Spec.after]
  | snoc l e ih =>
    have hl := ih h.prefix
    have hok : Spec.ok (Spec.after l) e := h l e [] rfl
    rw [Spec.after_snoc]
    have ha : advs g (l ++ [e]) = advs g l + advs g [e] := by simp [advs]
    have hb : segs g (l ++ [e]) = segs g l + segs g [e] := by simp [segs]
    rw [ha, hb, hl]
    cases e with
    | adv g' c seen =>
      by_cases hg : g' = g
      · subst hg
        have : ((Spec.after l).ph g').isRunning = false := by
          have := hok.2; cases seen <;> simp_all
        simp [advs, segs, Spec.next, this]
      · have : g ≠ g' := fun e => hg e.symm
        simp [advs, segs, Spec.next, hg, upd_other _ _ this]
    | got g' i =>
      obtain ⟨⟨v, hv⟩, _⟩ := hok
      simp only [Spec.next, hv]
      by_cases hg : g' = g
      · subst hg; simp [advs, segs, hv]
      · have : g ≠ g' := fun e => hg e.symm
        simp [advs, segs, upd_other _ _ this]
    | dropped o x =>
      cases x with
      | none => simp [advs, segs, Spec.next]
      | some g' =>
        by_cases hg : g' = g
        · subst hg
          have : ((Spec.after l).ph g').isRunning = false := by
            rcases hok.2 with e | ⟨v, e⟩ | e <;> simp [e]
          simp [advs, segs, Spec.next, this]
        · have : g ≠ g' := fun e => hg e.symm
          simp [advs, segs, Spec.next, upd_other _ _ this]
    | created g' _ | yielded g' _ | returned g' | raised g' _ | gotEnd g' _ | gotExc g' _ _ =>
      by_cases hg : g' = g
      · subst hg; simp_all [advs, segs, Spec.next, Spec.ok]
      · have : g ≠ g' := fun e => hg e.symm
        simp [advs, segs, Spec.next, hg, upd_other _ _ this]
    | poked g' _ =>
      obtain ⟨v, hv⟩ := hok
      by_cases hg : g' = g
      · subst hg; simp [advs, segs, Spec.next, hv]
      · have : g ≠ g' := fun e => hg e.symm
        simp [advs, segs, Spec.next, upd_other _ _ this]
    | _ => simp [advs, segs, Spec.next]

/-- Each advance makes the body run exactly one segment: in every history, the number of completed segments equals the
number of advances, minus the one that may be in progress; values nobody asked for are not computed. -/
theorem C20_one_segment_per_advance (P : Prog σ V E) (ops : List (Op σ V)) (g : Nat) :
    segs g (exec P ops).log ≤ advs g (exec P ops).log ∧ advs g (exec P ops).log ≤ segs g (exec P ops).log + 1 := by
  have := legal_counts g _ (good_exec P ops).legal
  generalize Ph.isRunning _ = b at this
  cases b <;> simp at this <;> omega

/-- While the main program has control, every advance has completed. -/
theorem C20_exactly_one_segment_per_advance (P : Prog σ V E) (ops : List (Op σ V)) (g : Nat)
    (hu : (exec P ops).ub = none) (hs : (exec P ops).stack = []) :
    segs g (exec P ops).log = advs g (exec P ops).log := by
  have h := legal_counts g _ (good_exec P ops).legal
  have hi := (good_exec P ops).inv hu
  have : (Spec.after (exec P ops).log).ph g ≠ .running := by
    rw [hi.ph]
    have hr : ((exec P ops).fr g).status ≠ .running := by
      intro e; have := (hi.run g).1 e; simp [hs] at this
    dsimp only; unfold absPh; split
    · simp
    · split <;> simp_all
      split <;> simp
  rw [Ne, ← Ph.isRunning_iff, Bool.not_eq_true] at this
  rw [this] at h; simp at h; omega

/-- A body executes something only inside a begin() or ++ of that generator: at every `ran g` the number of advances
exceeds the number of completed segments.  In particular nothing runs before begin(). -/
theorem C20_lazy (P : Prog σ V E) (ops : List (Op σ V)) (pre post : List (Ev V E)) (g : Nat)
    (h : (exec P ops).log = pre ++ .ran g :: post) : advs g pre = segs g pre + 1 := by
  have hl := (good_exec P ops).legal
  have hok := hl pre _ post h
  have hp : Legal Spec.next Spec.ok {} pre := by rw [h] at hl; exact hl.prefix
  have := legal_counts g pre hp
  have hok' : (Spec.after pre).ph g = .running := hok
  rw [hok'] at this; exact this

theorem C20_nothing_before_begin (P : Prog σ V E) (ops : List (Op σ V)) (pre post : List (Ev V E)) (g : Nat)
    (h : (exec P ops).log = pre ++ .ran g :: post) : ∃ c seen, Ev.adv g c seen ∈ pre := by
  have := C20_lazy P ops pre post g h
  have : 0 < advs g pre := by omega
  rw [advs, List.countP_pos_iff] at this
  obtain ⟨e, he, hp⟩ := this
  cases e <;> simp at hp
  subst hp
  exact ⟨_, _, he⟩

/-! ### Exceptions -/

/-- Exceptions are reported by the very advance during which they are thrown: when begin()/++ throws `e`, the body of
that generator has thrown `e` in that advance; after it the iterator equals end() and stays there. -/
theorem C21_exception_reported (P : Prog σ V E) (ops : List (Op σ V)) (pre post : List (Ev V E)) (g : Nat) (c : Call)
    (e : E) (h : (exec P ops).log = pre ++ .gotExc g c e :: post) :
    (Spec.after pre).ph g = .failed e ∧ (Spec.after (pre ++ [.gotExc g c e])).ph g = .over ∧
    (∀ i, c = .inc i → (Spec.after (pre ++ [.gotExc g c e])).it i = some none) := by
  have hok := (good_exec P ops).legal pre _ post h
  refine ⟨hok.1, ?_, ?_⟩
  · rw [Spec.after_snoc]; simp [Spec.next]
  · rintro i rfl; rw [Spec.after_snoc]; simp [Spec.next]

/-- A finished or failed generator never runs again. -/
theorem over_stays (g : Nat) (pre l : List (Ev V E)) (h : Legal Spec.next Spec.ok {} (pre ++ l))
    (ho : (Spec.after pre).ph g = .over ∨ (Spec.after pre).ph g = .gone) :
    ((Spec.after (pre ++ l)).ph g = .over ∨ (Spec.after (pre ++ l)).ph g = .gone) ∧
    ∀ e ∈ l, ∀ c x v i, e ≠ .adv g c x ∧ e ≠ .ran g ∧ e ≠ .yielded g v ∧ e ≠ .got g i := by
  induction l using snocInd with
  | nil => simp; exact ho
  | snoc l e ih =>
    rw [← List.append_assoc] at h
    obtain ⟨h1, h2⟩ := ih h.prefix
    have hok : Spec.ok (Spec.after (pre ++ l)) e := h _ e [] rfl
    rw [← List.append_assoc, Spec.after_snoc]
    constructor
    · generalize (Spec.after (pre ++ l)) = S at *
      cases e with
      | dropped o x =>
        cases x with
        | none => exact h1
        | some g' => by_cases hg : g = g'
                     · subst hg; right; simp [Spec.next]
                     · simpa [Spec.next, upd_other _ _ hg] using h1
      | got g' i =>
        obtain ⟨⟨v, hv⟩, _⟩ := hok
        by_cases hg : g = g'
        · subst hg; simp [hv] at h1
        · simpa [Spec.next, hv, upd_other _ _ hg] using h1
      | adv g' c x =>
        by_cases hg : g = g'
        · subst hg; have := hok.2; cases x <;> simp_all
        · simpa [Spec.next, upd_other _ _ hg] using h1
      | created g' _ | yielded g' _ | returned g' | raised g' _ | gotEnd g' _ | gotExc g' _ _ =>
        by_cases hg : g = g'
        · subst hg; simp_all [Spec.next, Spec.ok]
        · simpa [Spec.next, upd_other _ _ hg] using h1
      | poked g' _ =>
        obtain ⟨v, hv⟩ := hok
        by_cases hg : g = g'
        · subst hg; simp [hv] at h1
        · simpa [Spec.next, upd_other _ _ hg] using h1
      | _ => exact h1
    · intro e' he' c x v i
      rcases List.mem_append.mp he' with hm | hm
      · exact h2 e' hm c x v i
      · simp at hm; subst hm
        refine ⟨?_, ?_, ?_, ?_⟩ <;> rintro rfl
        · have := hok.2; cases x <;> simp_all
        · have : _ = _ := hok; simp_all
        · have : _ = _ := hok; simp_all
        · obtain ⟨⟨v, hv⟩, _⟩ := hok; simp_all

/-- After the exception (or the end) was reported nothing of that body ever runs again, no further value is delivered
and it is not reported a second time. -/
theorem C21_once (P : Prog σ V E) (ops : List (Op σ V)) (pre post : List (Ev V E)) (g : Nat) (c : Call) (e : E)
    (h : (exec P ops).log = pre ++ .gotExc g c e :: post) :
    ∀ e' ∈ post, ∀ c' x v i, e' ≠ .adv g c' x ∧ e' ≠ .ran g ∧ e' ≠ .yielded g v ∧ e' ≠ .got g i := by
  have hl := (good_exec P ops).legal
  have h3 := C21_exception_reported P ops pre post g c e h
  rw [h, show pre ++ Ev.gotExc g c e :: post = (pre ++ [.gotExc g c e]) ++ post by simp] at hl
  exact (over_stays g _ post hl (.inl h3.2.1)).2

/-! ### Ownership -/

/-- Frame destructions of `g`. -/
def destroys (g : Nat) (log : List (Ev V E)) : Nat := log.countP (fun | .dropped _ (some g') => g' == g | _ => false)

/-- The library never destroys a frame twice and never resumes a destroyed one through a Generator object; undefined
behaviour needs one of the other, named misuses. -/
theorem C22_memory_safe (P : Prog σ V E) (ops : List (Op σ V)) :
    (exec P ops).ub ≠ some .doubleDestroy ∧ (exec P ops).ub ≠ some .ownerDangling ∧ (exec P ops).ub ≠ some .stuck :=
  (good_exec P ops).ub

theorem legal_destroys (g : Nat) (log : List (Ev V E)) (h : Legal Spec.next Spec.ok {} log) :
    destroys g log = ((Spec.after log).ph g).isGone.toNat := by
  induction log using snocInd with
  | nil => simp [destroys, Spec.after]
  | snoc l e ih =>
    have hl := ih h.prefix
    have hok : Spec.ok (Spec.after l) e := h l e [] rfl
    rw [Spec.after_snoc]
    have ha : destroys g (l ++ [e]) = destroys g l + destroys g [e] := by simp [destroys]
    rw [ha, hl]
    cases e with
    | dropped o x =>
      cases x with
      | none => simp [destroys, Spec.next]
      | some g' =>
        by_cases hg : g = g'
        · subst hg
          have : ((Spec.after l).ph g).isGone = false := by rcases hok.2 with e | ⟨v, e⟩ | e <;> simp [e]
          simp [destroys, Spec.next, this]
        · have : g' ≠ g := fun e => hg e.symm
          simp [destroys, Spec.next, upd_other _ _ hg, this]
    | adv g' c seen =>
      by_cases hg : g = g'
      · subst hg
        have : ((Spec.after l).ph g).isGone = false := by have := hok.2; cases seen <;> simp_all
        simp [destroys, Spec.next, this]
      · simp [destroys, Spec.next, upd_other _ _ hg]
    | got g' i =>
      obtain ⟨⟨v, hv⟩, _⟩ := hok
      simp only [Spec.next, hv]
      by_cases hg : g = g'
      · subst hg; simp [destroys, hv]
      · simp [destroys, upd_other _ _ hg]
    | created g' _ | yielded g' _ | returned g' | raised g' _ | gotEnd g' _ | gotExc g' _ _ =>
      by_cases hg : g = g'
      · subst hg; simp_all [destroys, Spec.next, Spec.ok]
      · simp [destroys, Spec.next, upd_other _ _ hg]
    | poked g' _ =>
      obtain ⟨v, hv⟩ := hok
      by_cases hg : g = g'
      · subst hg; simp [destroys, Spec.next, hv]
      · simp [destroys, Spec.next, upd_other _ _ hg]
    | _ => simp [destroys, Spec.next]

/-- Each frame is destroyed at most once, and only together with the Generator object that owns it. -/
theorem C22_destroyed_once (P : Prog σ V E) (ops : List (Op σ V)) (g : Nat) : destroys g (exec P ops).log ≤ 1 := by
  rw [legal_destroys g _ (good_exec P ops).legal]; generalize Ph.isGone _ = b; cases b <;> simp

/-- Ownership: a created generator that was not destroyed is owned by exactly one live Generator object, unless its
owner was overwritten by a move assignment (`lost`). -/
theorem C22_owned (P : Prog σ V E) (ops : List (Op σ V)) (hu : (exec P ops).ub = none) (g : Nat)
    (hc : (Spec.after (exec P ops).log).ph g ≠ .unborn) (hd : destroys g (exec P ops).log = 0)
    (hl : (Spec.after (exec P ops).log).lost g = false) :
    ∃ o, (Spec.after (exec P ops).log).obj o = .live (some g) ∧
      ∀ o', (Spec.after (exec P ops).log).obj o' = .live (some g) → o' = o := by
  have hi := (good_exec P ops).inv hu
  rw [legal_destroys g _ (good_exec P ops).legal] at hd
  have hng : (Spec.after (exec P ops).log).ph g ≠ .gone := by intro e; simp [e] at hd
  rw [hi.obj]
  rw [hi.ph] at hc hng
  have hb : ((exec P ops).fr g).status ≠ .unborn := by
    intro e; apply hc; simp [absPh, e, (hi.wf g).unb e]
  have hf : ((exec P ops).fr g).freed = false := by
    cases hf : ((exec P ops).fr g).freed with
    | false => rfl
    | true => exact absurd (by simp [absPh, hf]) hng
  rcases hi.lost g hb hf with e | ⟨o, ho⟩
  · rw [e] at hl; cases hl
  · exact ⟨o, ho, fun o' ho' => hi.uniq _ _ _ ho' ho⟩

/-! ### Concrete cases (non-vacuity) and counterexamples -/

/-- Body 0: co_yield 10; co_yield 20; return.  Body 100: co_yield 1; throw 7. -/
def demo : Prog Nat Nat Nat where
  next
    | 0, _ => (1, .yield 10)
    | 1, _ => (2, .yield 20)
    | 100, _ => (101, .yield 1)
    | 101, _ => (102, .throw 7)
    | n, _ => (n, .ret)

example : Emits demo 0 .start [10, 20] none := .yield rfl (.yield rfl (.ret rfl))
example : Emits demo 100 .start [1] (some 7) := .yield rfl (.throw rfl)

/-- The hypotheses of `C21_once` and of `C20_lazy` are met by a real run. -/
def demoOps : List (Op Nat Nat) :=
  [.main (.create 100), .main (.begin 0), .tick, .main (.deref 0), .main (.inc 0), .tick, .main .endIt, .main (.cmp 0 1),
   .main (.drop 0)]

example : (exec demo demoOps).log =
    [.created 0 0, .adv 0 (.begin 0) none, .ran 0, .yielded 0 1, .got 0 0, .read 0 1, .adv 0 (.inc 0) (some 1), .ran 0,
     .raised 0 7, .gotExc 0 (.inc 0) 7, .mkEnd 1, .cmp 0 1 true, .dropped 0 (some 0)] ∧ (exec demo demoOps).ub = none := by
  decide

/-- Counterexample to "destroyed exactly once" (C22): move assignment over a live Generator (`qcorogenerator.h:244-248`)
leaks the old coroutine: every object is gone, frame 0 was never destroyed. -/
theorem C22_move_assign_leaks :
    let s := exec demo [.main (.create 0), .main (.create 0), .main (.moveAssign 0 1), .main (.drop 0), .main (.drop 1)]
    s.ub = none ∧ s.obj 0 = .dead ∧ s.obj 1 = .dead ∧ destroys 0 s.log = 0 ∧ destroys 1 s.log = 1 ∧
    (Spec.after s.log).ph 0 = .fresh := by decide

/-- Self move assignment empties the Generator and leaks its coroutine. -/
theorem C22_self_assign_leaks :
    let s := exec demo [.main (.create 0), .main (.moveAssign 0 0)]
    s.ub = none ∧ s.obj 0 = .live none ∧ destroys 0 s.log = 0 := by decide

/-- begin() on an empty or on a finished Generator is undefined behaviour. -/
theorem C22_begin_misuse :
    (exec demo [.main .mkNull, .main (.begin 0)]).ub = some .nullBegin ∧
    (exec demo [.main (.create 3), .main (.begin 0), .tick, .main (.begin 0)]).ub = some .resumeDone := by decide

end QCoro.Gen
