import Verif.AsyncGen.Loop
/-
Properties C23–C26 (AsyncGenerator).  `exec P ops` is the state after an arbitrary history: `P` gives arbitrary bodies
of producers and consumers, `ops` is an arbitrary schedule of coroutine starts, completions of awaited operations and
single steps of the running coroutine.
-/
set_option linter.unusedSimpArgs false
namespace QCoro.AGen
variable {σ V E : Type}

/-! ### C23 -/

/-- Every history obeys the abstract machine `Spec`: an advance is reported to the consumer that started it, with
exactly the value the producer co_yielded in it, or the end iff it returned, or its exception iff it threw; a read
returns the last co_yielded value. -/
theorem C23_refines (P : Prog σ V E) (ops : List (Op σ)) : Legal Spec.next Spec.ok {} (exec P ops).log :=
  (good_exec P ops).legal

/-- No co_yield, return or throw of a producer is left unreported: control goes to the waiting consumer at once. -/
theorem C23_reported (P : Prog σ V E) (ops : List (Op σ)) (hu : (exec P ops).ub = none) (g : Nat) :
    (∀ v k, (Spec.after (exec P ops).log).ph g ≠ .offered v k) ∧ (∀ k, (Spec.after (exec P ops).log).ph g ≠ .ended k) ∧
    (∀ e k, (Spec.after (exec P ops).log).ph g ≠ .failed e k) := by
  have h := ((good_exec P ops).inv hu).ph g
  rw [h]
  refine ⟨fun v k => ?_, fun k => ?_, fun e k => ?_⟩ <;>
    (unfold absPh; split <;> try simp) <;> (split <;> try simp) <;> (split <;> try simp) <;> (split <;> simp)

/-- The QCORO_FOREACH loop over a producer that co_yields `vs` with arbitrary suspensions, run under an **arbitrary**
schedule of completions: it never goes wrong; the values read so far are always an initial part of `vs`; it is never
deadlocked; and when the loop is over it has read exactly `vs` and ended at end() if the producer returned, with the
producer's exception if it threw. -/
theorem C23_foreach (P : Prog σ V E) {b c0 : σ} (F : IsForeach P b c0) (vs : List V) (f : Option E)
    (hE : Emits P b .start vs f) (ops : List (Op σ)) (hops : ∀ op ∈ ops, ∀ b, op ≠ .spawn b) :
    (exec P (.spawn c0 :: ops)).ub = none ∧
    (∃ rest, vs = reads (exec P (.spawn c0 :: ops)).log ++ rest) ∧
    (∀ x, Ev.finished 0 x ∈ (exec P (.spawn c0 :: ops)).log → x = f ∧
      reads (exec P (.spawn c0 :: ops)).log = vs ∧ Ended f (exec P (.spawn c0 :: ops)).log) ∧
    ((∀ x, Ev.finished 0 x ∉ (exec P (.spawn c0 :: ops)).log) →
      (∃ c, (exec P (.spawn c0 :: ops)).stack = [c]) ∨
      ∃ c, ((exec P (.spawn c0 :: ops)).fr c).status = .waitExt ∧ ((exec P (.spawn c0 :: ops)).fr c).freed = false) := by
  have h := cfg_exec P F vs f hE ops hops
  generalize exec P (.spawn c0 :: ops) = s at h
  cases h with
  | start h1 h2 h3 h4 h5 h6 h7 h8 h9 h10 h11 h12 h13 h14 =>
    exact ⟨h1, ⟨vs, by simp [h12]⟩, fun x e => absurd e (h13 x), fun _ => .inl ⟨_, h2⟩⟩
  | made h1 h2 h3 h4 h5 h6 h7 h8 h9 h10 h11 =>
    exact ⟨h1.ub, ⟨vs, by simp [h9]⟩, fun x e => absurd e (h10 x), fun _ => .inl ⟨_, h2⟩⟩
  | prod k b' vs1 vs2 h1 h2 h3 h4 h5 h6 h7 h8 h9 h10 h11 h12 =>
    refine ⟨h1.ub, ⟨vs2, by rw [h10]; exact h11⟩, fun x e => absurd e (h12 x), fun _ => ?_⟩
    rcases h2 with ⟨h2, _⟩ | ⟨_, h2⟩
    · exact .inl ⟨_, h2⟩
    · exact .inr ⟨1, h2, h1.f1⟩
  | got b' v vs1 vs2 h1 h2 h3 h4 h5 h6 h7 h8 h9 h10 h11 h12 =>
    exact ⟨h1.ub, ⟨v :: vs2, by rw [h10]; exact h11⟩, fun x e => absurd e (h12 x), fun _ => .inl ⟨_, h2⟩⟩
  | loop b' c' w vs1 vs2 h1 h2 h3 h4 h5 h6 h7 h8 h9 h10 =>
    refine ⟨h1.ub, ⟨vs2, by rw [h8]; exact h9⟩, fun x e => absurd e (h10 x), fun _ => ?_⟩
    rcases h3 with ⟨h3, _⟩ | ⟨_, h3, _⟩
    · exact .inl ⟨_, h3⟩
    · exact .inr ⟨0, h3, h1.f0⟩
  | over h1 h2 h3 h4 h5 h6 h7 h8 =>
    exact ⟨h1.ub, ⟨[], by simp [h6]⟩, fun x e => absurd e (h8 x), fun _ => .inl ⟨_, h2⟩⟩
  | done h1 h2 h3 h4 h5 h6 h7 h8 =>
    exact ⟨h1, ⟨[], by simp [h6]⟩, fun x e => ⟨(h8 x).1 e, h6, h7⟩, fun e => absurd ((h8 f).2 rfl) (e f)⟩

/-! ### C24 -/

/-- Event `e` reports the end of an advance of `g` to consumer `k`. -/
def reports (g k : Nat) : Ev V E → Bool
  | .got g' k' _ | .gotEnd g' k' _ | .gotExc g' k' _ _ => g' == g && k' == k
  | _ => false

/-- Event `e` is an advance of `g`. -/
def advances (g : Nat) : Ev V E → Bool | .adv g' _ _ => g' == g | _ => false

theorem waiting_stays (g k : Nat) (pre l : List (Ev V E)) (h : Legal Spec.next Spec.ok {} (pre ++ l))
    (hw : (Spec.after pre).cw k = some g) (hn : ∀ e ∈ l, reports g k e = false) :
    (Spec.after (pre ++ l)).cw k = some g := by
  induction l using snocInd with
  | nil => simpa using hw
  | snoc l e ih =>
    rw [← List.append_assoc] at h ⊢
    have hl := ih h.prefix (fun e he => hn e (by simp [he]))
    have hok : Spec.ok (Spec.after (pre ++ l)) e := h _ e [] rfl
    have hr := hn e (by simp)
    rw [Spec.after_snoc]
    generalize Spec.after (pre ++ l) = S at *
    cases e with
    | adv g' k' c =>
      by_cases hk : k = k'
      · subst hk; have := hok.1.1; simp [hl] at this
      · simpa [Spec.next, upd_other _ _ hk] using hl
    | got g' k' i =>
      by_cases hk : k = k'
      · subst hk; have := hok.2.1; simp [hl] at this; simp [reports, this] at hr
      · simpa [Spec.next, upd_other _ _ hk] using hl
    | gotEnd g' k' i =>
      by_cases hk : k = k'
      · subst hk; have := hok.2.1; simp [hl] at this; simp [reports, this] at hr
      · simpa [Spec.next, upd_other _ _ hk] using hl
    | gotExc g' k' c x =>
      by_cases hk : k = k'
      · subst hk; have := hok.2.1; simp [hl] at this; simp [reports, this] at hr
      · simpa [Spec.next, upd_other _ _ hk] using hl
    | dropped o x => cases x <;> exact hl
    | _ => exact hl

/-- The producer is parked: not started, suspended at a co_yield, over or destroyed. -/
def Ph.parked : Ph V E → Bool
  | .fresh | .at _ | .over | .gone => true
  | _ => false
@[simp] theorem Ph.parked_fresh : (Ph.fresh : Ph V E).parked = true := rfl
@[simp] theorem Ph.parked_at (v : V) : (Ph.at v : Ph V E).parked = true := rfl
@[simp] theorem Ph.parked_over : (Ph.over : Ph V E).parked = true := rfl
@[simp] theorem Ph.parked_gone : (Ph.gone : Ph V E).parked = true := rfl
@[simp] theorem Ph.parked_active (k : Nat) : (Ph.active k : Ph V E).parked = false := rfl
@[simp] theorem Ph.parked_plain : (Ph.plain : Ph V E).parked = false := rfl
@[simp] theorem Ph.parked_unborn : (Ph.unborn : Ph V E).parked = false := rfl
@[simp] theorem Ph.parked_offered (v : V) (k : Nat) : (Ph.offered v k : Ph V E).parked = false := rfl
@[simp] theorem Ph.parked_ended (k : Nat) : (Ph.ended k : Ph V E).parked = false := rfl
@[simp] theorem Ph.parked_failed (e : E) (k : Nat) : (Ph.failed e k : Ph V E).parked = false := rfl

theorem parked_stays (g : Nat) (pre l : List (Ev V E)) (h : Legal Spec.next Spec.ok {} (pre ++ l))
    (hp : ((Spec.after pre).ph g).parked = true) (hn : ∀ e ∈ l, advances g e = false) :
    ((Spec.after (pre ++ l)).ph g).parked = true := by
  induction l using snocInd with
  | nil => simpa using hp
  | snoc l e ih =>
    rw [← List.append_assoc] at h ⊢
    have hl := ih h.prefix (fun e he => hn e (by simp [he]))
    have hok : Spec.ok (Spec.after (pre ++ l)) e := h _ e [] rfl
    have hr := hn e (by simp)
    rw [Spec.after_snoc]
    generalize Spec.after (pre ++ l) = S at *
    cases e with
    | adv g' k' c =>
      by_cases hg : g = g'
      · subst hg; simp [advances] at hr
      · simpa [Spec.next, upd_other _ _ hg] using hl
    | got g' k' i =>
      obtain ⟨⟨v, hv⟩, _⟩ := hok
      by_cases hg : g = g'
      · subst hg; simp [Spec.next, hv]
      · simpa [Spec.next, hv, upd_other _ _ hg] using hl
    | dropped o x =>
      cases x with
      | none => exact hl
      | some g' =>
        by_cases hg : g = g'
        · subst hg; simp [Spec.next]
        · simpa [Spec.next, upd_other _ _ hg] using hl
    | yielded g' _ | returned g' | raised g' _ =>
      obtain ⟨_, k, hk⟩ := hok
      by_cases hg : g = g'
      · subst hg; simp [hk] at hl
      · simpa [Spec.next, hk, upd_other _ _ hg] using hl
    | finished g' x =>
      obtain ⟨_, hk⟩ := hok
      by_cases hg : g = g'
      · subst hg; simp [hk] at hl
      · simpa [Spec.next, hk, upd_other _ _ hg] using hl
    | spawned g' | created g' _ =>
      by_cases hg : g = g'
      · subst hg; simp_all [Spec.ok]
      · simpa [Spec.next, upd_other _ _ hg] using hl
    | gotEnd g' _ _ | gotExc g' _ _ _ =>
      by_cases hg : g = g'
      · subst hg; simp [Spec.next]
      · simpa [Spec.next, upd_other _ _ hg] using hl
    | poked i g' v =>
      by_cases hg : g = g'
      · subst hg; simp [Spec.next]
      · simpa [Spec.next, upd_other _ _ hg] using hl
    | _ => exact hl

/-- From begin()/++ until the outcome of that advance is reported to it, the consumer executes nothing. -/
theorem C24_consumer_suspended (P : Prog σ V E) (ops : List (Op σ)) (pre mid post : List (Ev V E)) (g k : Nat) (c : Call)
    (h : (exec P ops).log = pre ++ .adv g k c :: (mid ++ .ran k :: post)) : ∃ e ∈ mid, reports g k e = true := by
  have hl := (good_exec P ops).legal
  apply Classical.byContradiction
  intro hne
  have hn : ∀ e ∈ mid, reports g k e = false := by
    intro e he; cases hb : reports g k e with
    | false => rfl
    | true => exact absurd ⟨e, he, hb⟩ hne
  have h2 : (exec P ops).log = ((pre ++ [.adv g k c]) ++ mid) ++ .ran k :: post := by rw [h]; simp
  have hok := hl _ _ post h2
  have hp : Legal Spec.next Spec.ok {} ((pre ++ [.adv g k c]) ++ mid) := by rw [h2] at hl; exact hl.prefix
  have := waiting_stays g k (pre ++ [.adv g k c]) mid hp (by rw [Spec.after_snoc]; simp [Spec.next]) hn
  have hr : (Spec.after ((pre ++ [.adv g k c]) ++ mid)).cw k = none := hok.1
  rw [this] at hr; cases hr

/-- Between the report of one advance and the next begin()/++ the producer executes nothing: it is not advanced beyond
the requested value. -/
theorem C24_producer_suspended (P : Prog σ V E) (ops : List (Op σ)) (pre mid post : List (Ev V E)) (g k : Nat) (r : Ev V E)
    (hr : reports g k r = true) (h : (exec P ops).log = pre ++ r :: (mid ++ .ran g :: post)) :
    ∃ e ∈ mid, advances g e = true := by
  have hl := (good_exec P ops).legal
  apply Classical.byContradiction
  intro hne
  have hn : ∀ e ∈ mid, advances g e = false := by
    intro e he; cases hb : advances g e with
    | false => rfl
    | true => exact absurd ⟨e, he, hb⟩ hne
  have h2 : (exec P ops).log = ((pre ++ [r]) ++ mid) ++ .ran g :: post := by rw [h]; simp
  have hok := hl _ _ post h2
  have hokr := hl pre r (mid ++ .ran g :: post) h
  have hp : Legal Spec.next Spec.ok {} ((pre ++ [r]) ++ mid) := by rw [h2] at hl; exact hl.prefix
  have hpark : ((Spec.after (pre ++ [r])).ph g).parked = true := by
    rw [Spec.after_snoc]
    have hokr' : Spec.ok (Spec.after pre) r := hokr
    cases r <;> simp [reports] at hr
    · obtain ⟨⟨v, hv⟩, _⟩ := hokr'
      obtain ⟨rfl, rfl⟩ := hr; simp [Spec.next, hv]
    · obtain ⟨rfl, rfl⟩ := hr; simp [Spec.next]
    · obtain ⟨rfl, rfl⟩ := hr; simp [Spec.next]
  have := parked_stays g (pre ++ [r]) mid hp hpark hn
  have hq : (Spec.after ((pre ++ [r]) ++ mid)).ph g = .plain ∨ ∃ k, (Spec.after ((pre ++ [r]) ++ mid)).ph g = .active k := by
    rcases hok.2.2 with e | ⟨k, e, _⟩
    · exact .inl e
    · exact .inr ⟨k, e⟩
  rcases hq with e | ⟨k, e⟩ <;> rw [e] at this <;> cases this

/-- A generator executes nothing before the first begin(). -/
theorem C24_nothing_before_begin (P : Prog σ V E) (ops : List (Op σ)) (pre mid post : List (Ev V E)) (g o : Nat)
    (h : (exec P ops).log = pre ++ .created g o :: (mid ++ .ran g :: post)) : ∃ e ∈ mid, advances g e = true := by
  have hl := (good_exec P ops).legal
  apply Classical.byContradiction
  intro hne
  have hn : ∀ e ∈ mid, advances g e = false := by
    intro e he; cases hb : advances g e with
    | false => rfl
    | true => exact absurd ⟨e, he, hb⟩ hne
  have h2 : (exec P ops).log = ((pre ++ [.created g o]) ++ mid) ++ .ran g :: post := by rw [h]; simp
  have hok := hl _ _ post h2
  have hp : Legal Spec.next Spec.ok {} ((pre ++ [.created g o]) ++ mid) := by rw [h2] at hl; exact hl.prefix
  have := parked_stays g (pre ++ [.created g o]) mid hp (by rw [Spec.after_snoc]; simp [Spec.next]) hn
  have hq : (Spec.after ((pre ++ [.created g o]) ++ mid)).ph g = .plain ∨ ∃ k, (Spec.after ((pre ++ [.created g o]) ++ mid)).ph g = .active k := by
    rcases hok.2.2 with e | ⟨k, e, _⟩
    · exact .inl e
    · exact .inr ⟨k, e⟩
  rcases hq with e | ⟨k, e⟩ <;> rw [e] at this <;> cases this

/-! ### C25 -/

/-- When begin()/++ throws `e`, the producer has thrown `e` in that very advance, started by that consumer; afterwards
the generator is over and the incremented iterator equals end(). -/
theorem C25_exception_reported (P : Prog σ V E) (ops : List (Op σ)) (pre post : List (Ev V E)) (g k : Nat) (c : Call)
    (e : E) (h : (exec P ops).log = pre ++ .gotExc g k c e :: post) :
    (Spec.after pre).ph g = .failed e k ∧ (Spec.after (pre ++ [.gotExc g k c e])).ph g = .over ∧
    (∀ i, c = .inc i → (Spec.after (pre ++ [.gotExc g k c e])).it i = some none) := by
  have hok := (good_exec P ops).legal pre _ post h
  refine ⟨hok.1, ?_, ?_⟩
  · rw [Spec.after_snoc]; simp [Spec.next]
  · rintro i rfl; rw [Spec.after_snoc]; simp [Spec.next]

/-- In an execution without undefined behaviour, the event right after a producer's throw is its report to the
waiting consumer; likewise for co_yield and return. -/
theorem C25_immediate (P : Prog σ V E) (ops : List (Op σ)) (hu : (exec P ops).ub = none) (pre post : List (Ev V E)) (g : Nat) (e : E)
    (h : (exec P ops).log = pre ++ .raised g e :: post) : ∃ k c, Ev.gotExc g k c e ∈ post := by
  have hl := (good_exec P ops).legal
  have hrep := C23_reported P ops hu g
  obtain ⟨_, k, hk⟩ : (Spec.after pre).runnable g ∧ ∃ k, (Spec.after pre).ph g = .active k := hl pre _ post h
  have hf : (Spec.after (pre ++ [.raised g e])).ph g = .failed e k := by
    rw [Spec.after_snoc]; simp [Spec.next, hk]
  rw [show pre ++ Ev.raised g e :: post = (pre ++ [.raised g e]) ++ post by simp] at h
  rw [h] at hl hrep
  generalize pre ++ [Ev.raised g e] = p at *
  have key : ∀ l, Legal Spec.next Spec.ok {} (p ++ l) →
      (∃ k c, Ev.gotExc g k c e ∈ l) ∨ (Spec.after (p ++ l)).ph g = .failed e k := by
    intro l
    induction l using snocInd with
    | nil => intro _; right; simpa using hf
    | snoc l x ih =>
      intro hL
      rw [← List.append_assoc] at hL ⊢
      rcases ih hL.prefix with ⟨k, c, hm⟩ | hS
      · exact .inl ⟨k, c, by simp [hm]⟩
      have hok : Spec.ok (Spec.after (p ++ l)) x := hL _ x [] rfl
      rw [Spec.after_snoc]
      generalize Spec.after (p ++ l) = S at *
      cases x with
      | gotExc g' k' c' e' =>
        by_cases hg : g = g'
        · subst hg; have := hok.1; rw [hS] at this; cases this; exact .inl ⟨k, c', by simp⟩
        · right; simpa [Spec.next, upd_other _ _ hg] using hS
      | gotEnd g' k' i =>
        by_cases hg : g = g'
        · subst hg; have := hok.1; rw [hS] at this; cases this
        · right; simpa [Spec.next, upd_other _ _ hg] using hS
      | got g' k' i =>
        obtain ⟨⟨v, hv⟩, _⟩ := hok
        by_cases hg : g = g'
        · subst hg; rw [hS] at hv; cases hv
        · right; simpa [Spec.next, hv, upd_other _ _ hg] using hS
      | adv g' k' c =>
        by_cases hg : g = g'
        · subst hg; rcases hok.2.1 with a | ⟨v, a⟩ <;> rw [hS] at a <;> cases a
        · right; simpa [Spec.next, upd_other _ _ hg] using hS
      | dropped o y =>
        cases y with
        | none => exact .inr hS
        | some g' =>
          by_cases hg : g = g'
          · subst hg
            rcases hok.2 with a | ⟨v, a⟩ | a | ⟨⟨k, a⟩, _⟩ <;> rw [hS] at a <;> cases a
          · right; simpa [Spec.next, upd_other _ _ hg] using hS
      | yielded g' _ | returned g' | raised g' _ =>
        obtain ⟨_, k, hk⟩ := hok
        by_cases hg : g = g'
        · subst hg; rw [hS] at hk; cases hk
        · right; simpa [Spec.next, hk, upd_other _ _ hg] using hS
      | finished g' x =>
        obtain ⟨_, hk⟩ := hok
        by_cases hg : g = g'
        · subst hg; rw [hS] at hk; cases hk
        · right; simpa [Spec.next, hk, upd_other _ _ hg] using hS
      | spawned g' | created g' _ =>
        by_cases hg : g = g'
        · subst hg; simp_all [Spec.ok]
        · right; simpa [Spec.next, upd_other _ _ hg] using hS
      | poked i g' v =>
        obtain ⟨_, w, hw⟩ := hok
        by_cases hg : g = g'
        · subst hg; rw [hS] at hw; cases hw
        · right; simpa [Spec.next, upd_other _ _ hg] using hS
      | _ => exact .inr hS
  rcases key post hl with h | h
  · exact h
  · exact absurd h (hrep.2.2 e k)

/-! ### C26 -/

/-- Frame destructions of `g`. -/
def destroys (g : Nat) (log : List (Ev V E)) : Nat := log.countP (fun | .dropped _ (some g') => g' == g | _ => false)

/-- Abandoning is safe unless the producer is in a co_await of its own: a destroyed coroutine is only ever resumed if
it was destroyed while suspended in a co_await of its own or in a begin()/++ (`AbandonedBusy`); frames are never
destroyed twice, and begin() through an owning object never reaches a destroyed frame. -/
theorem C26_safe_unless_busy (P : Prog σ V E) (ops : List (Op σ)) :
    (∀ c, (exec P ops).ub = some (.resumeDestroyed c) ∨ (exec P ops).ub = some (.consumerDestroyed c) →
      AbandonedBusy c (exec P ops).log) ∧
    (exec P ops).ub ≠ some .doubleDestroy ∧ (exec P ops).ub ≠ some .ownerDangling ∧ (exec P ops).ub ≠ some .stuck :=
  ⟨(good_exec P ops).safe, (good_exec P ops).ub⟩

/-- A destroyed generator executes nothing and delivers nothing any more. -/
theorem C26_dead_stays_dead (P : Prog σ V E) (ops : List (Op σ)) (pre post : List (Ev V E)) (g o : Nat)
    (h : (exec P ops).log = pre ++ .dropped o (some g) :: post) :
    ∀ e ∈ post, e ≠ .ran g ∧ e ≠ .resumed g ∧ advances g e = false ∧ (∀ v, e ≠ .yielded g v) ∧
      (∀ o', e ≠ .dropped o' (some g)) := by
  have hl := (good_exec P ops).legal
  rw [h, show pre ++ Ev.dropped o (some g) :: post = (pre ++ [.dropped o (some g)]) ++ post by simp] at hl
  have h0 : (Spec.after (pre ++ [.dropped o (some g)])).ph g = .gone := by rw [Spec.after_snoc]; simp [Spec.next]
  generalize pre ++ [Ev.dropped o (some g)] = p at *
  clear h
  have key : ∀ l, Legal Spec.next Spec.ok {} (p ++ l) → (Spec.after (p ++ l)).ph g = .gone ∧
      ∀ e ∈ l, e ≠ .ran g ∧ e ≠ .resumed g ∧ advances g e = false ∧ (∀ v, e ≠ .yielded g v) ∧
      (∀ o', e ≠ .dropped o' (some g)) := by
    intro l
    induction l using snocInd with
    | nil => intro _; exact ⟨by simpa using h0, by simp⟩
    | snoc l x ih =>
      intro hL
      rw [← List.append_assoc] at hL ⊢
      obtain ⟨hS, hA⟩ := ih hL.prefix
      have hok : Spec.ok (Spec.after (p ++ l)) x := hL _ x [] rfl
      rw [Spec.after_snoc]
      generalize Spec.after (p ++ l) = S at *
      have hx : x ≠ .ran g ∧ x ≠ .resumed g ∧ advances g x = false ∧ (∀ v, x ≠ .yielded g v) ∧
          (∀ o', x ≠ .dropped o' (some g)) := by
        refine ⟨?_, ?_, ?_, ?_, ?_⟩
        · rintro rfl; rcases hok.2.2 with e | ⟨k, e, _⟩ <;> rw [hS] at e <;> cases e
        · rintro rfl; rcases hok.2.2 with e | ⟨k, e⟩ <;> rw [hS] at e <;> cases e
        · cases x with
          | adv g' k c =>
            cases hb : advances g (Ev.adv g' k c : Ev V E) with
            | false => rfl
            | true =>
              simp [advances] at hb; subst hb
              rcases hok.2.1 with e | ⟨k, e⟩ <;> rw [hS] at e <;> cases e
          | _ => rfl
        · rintro v rfl; obtain ⟨_, k, e⟩ := hok; rw [hS] at e; cases e
        · rintro o' rfl
          rcases hok.2 with a | ⟨v, a⟩ | a | ⟨⟨k, a⟩, _⟩ <;> rw [hS] at a <;> cases a
      refine ⟨?_, ?_⟩
      · cases x with
        | gotExc g' k' c' e' =>
          by_cases hg : g = g'
          · subst hg; have := hok.1; rw [hS] at this; cases this
          · simpa [Spec.next, upd_other _ _ hg] using hS
        | gotEnd g' k' i =>
          by_cases hg : g = g'
          · subst hg; have := hok.1; rw [hS] at this; cases this
          · simpa [Spec.next, upd_other _ _ hg] using hS
        | got g' k' i =>
          obtain ⟨⟨v, hv⟩, _⟩ := hok
          by_cases hg : g = g'
          · subst hg; rw [hS] at hv; cases hv
          · simpa [Spec.next, hv, upd_other _ _ hg] using hS
        | adv g' k' c =>
          by_cases hg : g = g'
          · subst hg; simp [advances] at hx
          · simpa [Spec.next, upd_other _ _ hg] using hS
        | dropped o y =>
          cases y with
          | none => exact hS
          | some g' =>
            by_cases hg : g = g'
            · subst hg; simp at hx
            · simpa [Spec.next, upd_other _ _ hg] using hS
        | yielded g' _ | returned g' | raised g' _ =>
          obtain ⟨_, k, hk⟩ := hok
          by_cases hg : g = g'
          · subst hg; rw [hS] at hk; cases hk
          · simpa [Spec.next, hk, upd_other _ _ hg] using hS
        | finished g' x =>
          obtain ⟨_, hk⟩ := hok
          by_cases hg : g = g'
          · subst hg; rw [hS] at hk; cases hk
          · simpa [Spec.next, hk, upd_other _ _ hg] using hS
        | spawned g' | created g' _ =>
          by_cases hg : g = g'
          · subst hg; simp_all [Spec.ok]
          · simpa [Spec.next, upd_other _ _ hg] using hS
        | poked i g' v =>
          obtain ⟨_, w, hw⟩ := hok
          by_cases hg : g = g'
          · subst hg; rw [hS] at hw; cases hw
          · simpa [Spec.next, upd_other _ _ hg] using hS
        | _ => exact hS
      · intro e he
        rcases List.mem_append.mp he with hm | hm
        · exact hA e hm
        · simp at hm; subst hm; exact hx
  exact (key post hl).2

/-- Ownership: a generator that was created and not destroyed is owned by exactly one live AsyncGenerator object,
unless its owner was overwritten by a move assignment (`lost`). -/
theorem C26_owned (P : Prog σ V E) (ops : List (Op σ)) (hu : (exec P ops).ub = none) (g o : Nat)
    (hc : Ev.created g o ∈ (exec P ops).log) (hd : ∀ o, Ev.dropped o (some g) ∉ (exec P ops).log)
    (hl : (Spec.after (exec P ops).log).lost g = false) :
    ∃ o, (Spec.after (exec P ops).log).obj o = .live (some g) ∧
      ∀ o', (Spec.after (exec P ops).log).obj o' = .live (some g) → o' = o := by
  have hi := (good_exec P ops).inv hu
  have hleg := (good_exec P ops).legal
  have key : ∀ l : List (Ev V E), Legal Spec.next Spec.ok {} l → Ev.created g o ∈ l → (∀ o, Ev.dropped o (some g) ∉ l) →
      (Spec.after l).ph g ≠ .unborn ∧ (Spec.after l).ph g ≠ .gone ∧ (Spec.after l).ph g ≠ .plain ∧ (Spec.after l).ph g ≠ .plainOver := by
    intro l
    induction l using snocInd with
    | nil => simp
    | snoc l x ih =>
      intro hL hm hdn
      have hok : Spec.ok (Spec.after l) x := hL l x [] rfl
      rw [Spec.after_snoc]
      have hdl : ∀ o, Ev.dropped o (some g) ∉ l := fun o h => hdn o (by simp [h])
      have hxd : ∀ o, x ≠ .dropped o (some g) := fun o e => hdn o (by simp [e])
      rcases List.mem_append.mp hm with hm | hm
      · have hS := ih hL.prefix hm hdl
        generalize Spec.after l = S at *
        cases x with
        | gotExc g' k' c' e' =>
          by_cases hg : g = g'
          · subst hg; simp [Spec.next]
          · simpa [Spec.next, upd_other _ _ hg] using hS
        | gotEnd g' k' i =>
          by_cases hg : g = g'
          · subst hg; simp [Spec.next]
          · simpa [Spec.next, upd_other _ _ hg] using hS
        | got g' k' i =>
          obtain ⟨⟨v, hv⟩, _⟩ := hok
          by_cases hg : g = g'
          · subst hg; simp [Spec.next, hv]
          · simpa [Spec.next, hv, upd_other _ _ hg] using hS
        | adv g' k' c =>
          by_cases hg : g = g'
          · subst hg; simp [Spec.next]
          · simpa [Spec.next, upd_other _ _ hg] using hS
        | dropped o y =>
          cases y with
          | none => exact hS
          | some g' =>
            by_cases hg : g = g'
            · subst hg; exact absurd rfl (hxd o)
            · simpa [Spec.next, upd_other _ _ hg] using hS
        | yielded g' _ | returned g' | raised g' _ =>
          obtain ⟨_, k, hk⟩ := hok
          by_cases hg : g = g'
          · subst hg; simp [Spec.next, hk]
          · simpa [Spec.next, hk, upd_other _ _ hg] using hS
        | finished g' x =>
          obtain ⟨_, hk⟩ := hok
          by_cases hg : g = g'
          · subst hg; exact absurd hk hS.2.2.1
          · simpa [Spec.next, hk, upd_other _ _ hg] using hS
        | spawned g' =>
          by_cases hg : g = g'
          · subst hg; exact absurd hok hS.1
          · simpa [Spec.next, upd_other _ _ hg] using hS
        | created g' _ =>
          by_cases hg : g = g'
          · subst hg; exact absurd hok.1 hS.1
          · simpa [Spec.next, upd_other _ _ hg] using hS
        | poked i g' v =>
          by_cases hg : g = g'
          · subst hg; simp [Spec.next]
          · simpa [Spec.next, upd_other _ _ hg] using hS
        | _ => exact hS
      · simp at hm; subst hm; simp [Spec.next]
  obtain ⟨k1, k2, k3, k4⟩ := key _ hleg hc hd
  rw [hi.ph] at k1 k2 k3 k4
  rw [hi.obj]
  have hf : ((exec P ops).fr g).freed = false := by
    cases hf : ((exec P ops).fr g).freed with
    | false => rfl
    | true => exact absurd (by simp [absPh, hf]) k2
  have hb : ((exec P ops).fr g).status ≠ .unborn := by
    intro e; apply k1; simp [absPh, e, hf]
  have hgn : ((exec P ops).fr g).isGen = true := by
    cases hg : ((exec P ops).fr g).isGen with
    | true => rfl
    | false =>
      exfalso
      have w := hi.wf g
      cases hs : ((exec P ops).fr g).status with
      | unborn => exact hb hs
      | initial => have := (w.ini hs).1; simp [hg] at this
      | atYield => have := (w.yld hs).1; simp [hg] at this
      | done => exact k4 (by simp [absPh, hf, hs, hg])
      | running => exact k3 (by simp [absPh, hf, hs, hg])
      | waitExt => exact k3 (by simp [absPh, hf, hs, hg])
      | waitGen a b => exact k3 (by simp [absPh, hf, hs, hg])
  rcases hi.lost g hb hf hgn with e | ⟨o, ho⟩
  · rw [e] at hl; cases hl
  · exact ⟨o, ho, fun o' ho' => hi.uniq _ _ _ ho' ho⟩

/-! ### Concrete cases (non-vacuity) and counterexamples -/

/-- Body 0: co_await; co_yield 10; co_yield 20; return.  Body 100: co_yield 1; throw 7.
Bodies 200/300 are QCORO_FOREACH loops over body 0 / body 100 with a co_await in the loop body.
-/
inductive DS | p (n : Nat) | loop | next | test (i : Nat) | body (i : Nat) | step (i : Nat)

def demo : Prog DS Nat Nat where
  next
    | .p 0, _ => (.p 1, .awaitExt)
    | .p 1, _ => (.p 2, .yield 10)
    | .p 2, _ => (.p 3, .yield 20)
    | .p 100, _ => (.p 101, .yield 1)
    | .p 101, _ => (.p 102, .throw 7)
    | .p 200, _ => (.loop, .create (.p 0))
    | .p 300, _ => (.loop, .create (.p 100))
    | .p 500, _ => (.p 501, .drop 0)
    | .p 600, _ => (.p 601, .create (.p 0))
    | .p 601, _ => (.p 602, .create (.p 0))
    | .p 602, _ => (.p 603, .moveAssign 0 1)
    | .p 603, _ => (.p 604, .drop 0)
    | .p 604, _ => (.p 605, .drop 1)
    | .p _, _ => (.p 999, .ret)
    | .loop, .obj o => (.next, .begin o)
    | .loop, _ => (.p 999, .ret)
    | .next, .iter i => (.test i, .isEnd i)
    | .next, .threw e => (.p 999, .throw e)
    | .next, _ => (.p 999, .ret)
    | .test i, .flag false => (.body i, .deref i)
    | .test _, _ => (.p 999, .ret)
    | .body i, _ => (.step i, .awaitExt)
    | .step i, _ => (.next, .inc i)

theorem demo_emits : Emits demo (.p 0) .start [10, 20] none := .await rfl (.yield rfl (.yield rfl (.ret rfl)))
theorem demo_emits' : Emits demo (.p 100) .start [1] (some 7) := .yield rfl (.throw rfl)

/-- The loop programs are QCORO_FOREACH loops. -/
def demo_foreach (b c0 : DS) (h : demo.next c0 .start = (.loop, .create b)) : IsForeach demo b c0 where
  c1 := .loop
  c2 := .next
  c3 i := .test i
  c4 i := .body i
  c5 := .p 999
  body i c _ := c = .body i ∨ c = .step i
  create := h
  begin o := rfl
  test i := rfl
  stop i := rfl
  read i := rfl
  enter i v := .inl rfl
  step := by
    intro i c r h
    rcases h with rfl | rfl
    · exact .inr (.inl ⟨.step i, rfl, .inr rfl⟩)
    · exact .inr (.inr rfl)
  rethrow e := rfl

/-- `C23_foreach` applies to both demo loops. -/
example (ops : List (Op DS)) (hops : ∀ op ∈ ops, ∀ b, op ≠ .spawn b) :=
  C23_foreach demo (demo_foreach (.p 0) (.p 200) rfl) [10, 20] none demo_emits ops hops
example (ops : List (Op DS)) (hops : ∀ op ∈ ops, ∀ b, op ≠ .spawn b) :=
  C23_foreach demo (demo_foreach (.p 100) (.p 300) rfl) [1] (some 7) demo_emits' ops hops

def demo_ops : List (Op DS) :=
  [.tick, .tick, .tick, .ext 1, .tick, .tick, .tick, .tick, .ext 0, .tick, .tick, .tick, .tick, .tick, .ext 0, .tick, .tick, .tick, .tick]

/-- A complete run of the loop: two values, then end(). -/
example : reads (exec demo (.spawn (.p 200) :: demo_ops)).log = [10, 20] ∧
    Ev.finished 0 none ∈ (exec demo (.spawn (.p 200) :: demo_ops)).log ∧ (exec demo (.spawn (.p 200) :: demo_ops)).ub = none := by decide

example : reads (exec demo (.spawn (.p 300) :: [.tick, .tick, .tick, .tick, .tick, .tick, .ext 0, .tick, .tick, .tick])).log = [1] ∧
    Ev.gotExc 1 0 (.inc 0) 7 ∈ (exec demo (.spawn (.p 300) :: [.tick, .tick, .tick, .tick, .tick, .tick, .ext 0, .tick, .tick, .tick])).log := by decide

/-- Counterexample to C26: the consumer (body 200) is suspended in begin(), the producer in its own co_await; another
coroutine (body 500) destroys the AsyncGenerator; when the awaited operation completes, a destroyed coroutine is
resumed (`qcoroasyncgenerator.h:298-302` destroys the frame without cancelling what it awaits). -/
theorem C26_abandoned_while_awaiting :
    (exec demo [.spawn (.p 200), .tick, .tick, .tick, .spawn (.p 500), .tick, .tick, .ext 1]).ub = some (.resumeDestroyed 1) := by
  decide

/-- Counterexample: move assignment over a live AsyncGenerator (`:305-309`) leaks the old coroutine. -/
theorem C26_move_assign_leaks :
    let s := exec demo [.spawn (.p 600), .tick, .tick, .tick, .tick, .tick, .tick]
    s.ub = none ∧ s.obj 0 = .dead ∧ s.obj 1 = .dead ∧ (Spec.after s.log).ph 1 = .fresh ∧ destroys 1 s.log = 0 := by decide

end QCoro.AGen
