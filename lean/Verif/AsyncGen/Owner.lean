import Verif.AsyncGen.Props

/-! C26: the exact ownership discipline of `AsyncGenerator` objects (`qcoroasyncgenerator.h:284-309, 360-363`) and exactly
which actions are undefined behaviour. -/
namespace QCoro.AGen
variable {σ V E : Type} {S : Spec V E}

/-- What every legal history keeps true of owners. -/
structure Own (S : Spec V E) : Prop where
  own : ∀ o g, S.obj o = .live (some g) → S.ph g ≠ .unborn ∧ S.ph g ≠ .gone ∧ S.lost g = false
  uniq : ∀ o o' g, S.obj o = .live (some g) → S.obj o' = .live (some g) → o = o'
  lost : ∀ g, S.lost g = true → S.ph g ≠ .unborn ∧ S.ph g ≠ .gone

theorem Own.phase (h : Own S) {T : Spec V E} (ho : T.obj = S.obj) (hl : T.lost = S.lost)
    (hp : ∀ g, S.ph g ≠ .unborn ∧ S.ph g ≠ .gone → T.ph g ≠ .unborn ∧ T.ph g ≠ .gone) : Own T := by
  refine ⟨?_, ?_, ?_⟩
  · intro o g e; rw [ho] at e; have := h.own o g e; rw [hl]; have q := hp g ⟨this.1, this.2.1⟩; exact ⟨q.1, q.2, this.2.2⟩
  · intro o o' g; rw [ho]; exact h.uniq o o' g
  · intro g e; rw [hl] at e; exact hp g (h.lost g e)

theorem Own.upd_ph (h : Own S) (g : Nat) (p : Ph V E) {T : Spec V E} (ho : T.obj = S.obj) (hl : T.lost = S.lost)
    (hT : T.ph = upd S.ph g p) (hp : p ≠ .unborn ∧ p ≠ .gone) : Own T := by
  refine h.phase ho hl ?_
  intro g' hg'
  rw [hT]
  by_cases e : g' = g
  · subst e; simpa using hp
  · rw [upd_other _ _ e]; exact hg'

theorem Own.step (h : Own S) (e : Ev V E) (hok : S.ok e) : Own (S.next e) := by
  cases e with
  | created g o =>
    obtain ⟨hu, ho⟩ := hok
    refine ⟨?_, ?_, ?_⟩
    · intro o' g' he
      simp only [Spec.next] at he ⊢
      by_cases ho' : o' = o
      · subst ho'; simp at he; subst he
        simp
        cases hl : S.lost g with
        | false => rfl
        | true => exact absurd hu (h.lost g hl).1
      · rw [upd_other _ _ ho'] at he
        have := h.own o' g' he
        have hg : g' ≠ g := fun e => this.1 (e ▸ hu)
        rw [upd_other _ _ hg]; exact this
    · intro o1 o2 g' h1 h2
      simp only [Spec.next, upd_apply] at h1 h2
      have hn : ∀ o', S.obj o' ≠ .live (some g) := fun o' e => (h.own o' g e).1 hu
      have := h.uniq o1 o2 g'
      grind
    · intro g' hl
      simp only [Spec.next] at hl ⊢
      have := h.lost g' hl
      have hg : g' ≠ g := fun e => this.1 (e ▸ hu)
      rw [upd_other _ _ hg]; exact this
  | spawned c => exact h.upd_ph c .plain rfl rfl rfl (by simp)
  | finished c x => exact h.upd_ph c .plainOver rfl rfl rfl (by simp)
  | adv g k c => exact h.upd_ph g (.active k) rfl rfl rfl (by simp)
  | yielded g v => obtain ⟨_, k, hk⟩ := hok; exact h.upd_ph g (.offered v k) rfl rfl (by simp [Spec.next, hk]) (by simp)
  | returned g => obtain ⟨_, k, hk⟩ := hok; exact h.upd_ph g (.ended k) rfl rfl (by simp [Spec.next, hk]) (by simp)
  | raised g e => obtain ⟨_, k, hk⟩ := hok; exact h.upd_ph g (.failed e k) rfl rfl (by simp [Spec.next, hk]) (by simp)
  | gotEnd g k i => exact h.upd_ph g .over rfl rfl rfl (by simp)
  | gotExc g k c e => exact h.upd_ph g .over rfl rfl rfl (by simp)
  | got g k i =>
    obtain ⟨⟨v, hv⟩, _⟩ := hok
    exact h.upd_ph g (.at v) rfl rfl (by simp [Spec.next, hv]) (by simp)
  | poked i g v => exact h.upd_ph g (.at v) rfl rfl rfl (by simp)
  | ran _ | work _ _ | suspended _ | resumed _ | emptyBegin _ _ | copied _ _ | tested _ _ | read _ _ => exact h.phase rfl rfl (fun _ h => h)
  | mkNull o =>
    refine ⟨?_, ?_, h.lost⟩
    · intro o' g he; simp only [Spec.next, upd_apply] at he; have := h.own o' g; simp only [Spec.next]; grind
    · intro o1 o2 g h1 h2; simp only [Spec.next, upd_apply] at h1 h2; have := h.uniq o1 o2 g; grind
  | moved o n =>
    obtain ⟨⟨x, hx⟩, hn⟩ := hok
    refine ⟨?_, ?_, h.lost⟩
    · intro o' g he; simp only [Spec.next, upd_apply] at he ⊢; have := h.own o' g; have := h.own o g; grind
    · intro o1 o2 g h1 h2; simp only [Spec.next, upd_apply] at h1 h2
      have := h.uniq o1 o2 g; have := h.uniq o1 o g; have := h.uniq o o2 g; grind
  | swapped a b =>
    obtain ⟨⟨x, hx⟩, ⟨y, hy⟩⟩ := hok
    refine ⟨?_, ?_, h.lost⟩
    · intro o' g he; simp only [Spec.next, upd_apply] at he ⊢
      have := h.own o' g; have := h.own a g; have := h.own b g; grind
    · intro o1 o2 g h1 h2; simp only [Spec.next, upd_apply] at h1 h2
      have := h.uniq o1 o2 g; have := h.uniq o1 a g; have := h.uniq a o2 g; have := h.uniq o1 b g; have := h.uniq b o2 g
      have := h.uniq a b g; grind
  | assigned d c =>
    obtain ⟨⟨x, hx⟩, ⟨y, hy⟩⟩ := hok
    refine ⟨?_, ?_, ?_⟩
    · intro o' g he; simp only [Spec.next, upd_apply, hx] at he ⊢
      have h1 := h.own o' g; have h2 := h.own c g; have h3 := h.uniq o' d g; have h4 := h.uniq c d g
      cases x with
      | none => grind
      | some gd =>
        have : g ≠ gd := by grind
        simp only [upd_other _ _ this]; grind
    · intro o1 o2 g h1 h2; simp only [Spec.next, upd_apply] at h1 h2
      have := h.uniq o1 o2 g; have := h.uniq o1 c g; have := h.uniq c o2 g; grind
    · intro g hl
      simp only [Spec.next, hx] at hl ⊢
      cases x with
      | none => exact h.lost g hl
      | some gd =>
        by_cases e : g = gd
        · subst e; have := h.own d g hx; exact ⟨this.1, this.2.1⟩
        · simp only [upd_other _ _ e] at hl; exact h.lost g hl
  | dropped o x =>
    cases x with
    | none =>
      refine ⟨?_, ?_, h.lost⟩
      · intro o' g he; simp only [Spec.next, upd_apply] at he; have := h.own o' g; simp only [Spec.next]; grind
      · intro o1 o2 g h1 h2; simp only [Spec.next, upd_apply] at h1 h2; have := h.uniq o1 o2 g; grind
    | some gd =>
      obtain ⟨hx, _⟩ := hok
      refine ⟨?_, ?_, ?_⟩
      · intro o' g he; simp only [Spec.next, upd_apply] at he ⊢
        have := h.own o' g; have := h.uniq o' o g; grind
      · intro o1 o2 g h1 h2; simp only [Spec.next, upd_apply] at h1 h2; have := h.uniq o1 o2 g; grind
      · intro g hl; simp only [Spec.next, upd_apply] at hl ⊢
        have := h.lost g hl; have := h.own o gd hx; grind

theorem own_legal (log : List (Ev V E)) (h : Legal Spec.next Spec.ok {} log) : Own (Spec.after log) := by
  induction log using snocInd with
  | nil => exact ⟨fun o g e => by simp [Spec.after] at e, fun o o' g e => by simp [Spec.after] at e, fun g e => by simp [Spec.after] at e⟩
  | snoc l e ih => rw [Spec.after_snoc]; exact (ih h.prefix).step e (h l e [] rfl)

theorem lost_stays (g : Nat) (p l : List (Ev V E)) (h : (Spec.after p).lost g = true) : (Spec.after (p ++ l)).lost g = true := by
  induction l using snocInd with
  | nil => simpa using h
  | snoc l e ih =>
    rw [← List.append_assoc, Spec.after_snoc]
    generalize Spec.after (p ++ l) = S at *
    cases e with
    | assigned d c =>
      simp only [Spec.next]
      cases hd : S.obj d with
      | live x => cases x <;> simp_all [upd_apply]
      | _ => simp_all
    | dropped o x => cases x <;> exact ih
    | _ => exact ih

theorem lost_iff (g : Nat) (log : List (Ev V E)) : (Spec.after log).lost g = true ↔
    ∃ pre d c post, log = pre ++ .assigned d c :: post ∧ (Spec.after pre).obj d = .live (some g) := by
  constructor
  · induction log using snocInd with
    | nil => simp [Spec.after]
    | snoc l e ih =>
      rw [Spec.after_snoc]
      intro h
      by_cases hl : (Spec.after l).lost g = true
      · obtain ⟨pre, d, c, post, rfl, h2⟩ := ih hl
        exact ⟨pre, d, c, post ++ [e], by simp, h2⟩
      · cases e with
        | assigned d c =>
          refine ⟨l, d, c, [], rfl, ?_⟩
          simp only [Spec.next] at h
          cases hd : (Spec.after l).obj d with
          | live x =>
            cases x with
            | none => simp only [hd] at h; exact absurd h hl
            | some g' =>
              simp only [hd] at h
              by_cases e : g = g'
              · rw [e]
              · rw [upd_other _ _ e] at h; exact absurd h hl
          | _ => simp only [hd] at h; exact absurd h hl
        | dropped o x => cases x <;> exact absurd h hl
        | _ => exact absurd h hl
  · rintro ⟨pre, d, c, post, rfl, h⟩
    rw [show pre ++ Ev.assigned d c :: post = (pre ++ [.assigned d c]) ++ post by simp]
    exact lost_stays g _ post (by rw [Spec.after_snoc]; simp [Spec.next, h])

/-- A generator that was destroyed is, and stays, destroyed; one that was not, is not. -/
theorem gone_iff (g : Nat) (log : List (Ev V E)) (h : Legal Spec.next Spec.ok {} log) :
    (Spec.after log).ph g = .gone ↔ ∃ o, Ev.dropped o (some g) ∈ log := by
  induction log using snocInd with
  | nil => simp [Spec.after]
  | snoc l e ih =>
    have hi := ih h.prefix
    have hok : Spec.ok (Spec.after l) e := h l e [] rfl
    rw [Spec.after_snoc]
    have ho := own_legal l h.prefix
    generalize Spec.after l = S at *
    cases e with
    | dropped o x =>
      cases x with
      | none => simpa [Spec.next] using hi
      | some g' =>
        by_cases hg : g = g'
        · subst hg; simp [Spec.next]
        · simp [Spec.next, upd_other _ _ hg, hi, hg]
    | spawned g' =>
      by_cases hg : g = g'
      · subst hg; have : S.ph g = _ := hok; simp [Spec.next]; grind
      · simpa [Spec.next, upd_other _ _ hg] using hi
    | created g' _ =>
      by_cases hg : g = g'
      · subst hg; have := hok.1; simp [Spec.next]; grind
      · simpa [Spec.next, upd_other _ _ hg] using hi
    | adv g' _ _ =>
      by_cases hg : g = g'
      · subst hg; have := hok.2.1; simp [Spec.next]; grind
      · simpa [Spec.next, upd_other _ _ hg] using hi
    | gotEnd g' _ _ =>
      by_cases hg : g = g'
      · subst hg; have := hok.1; simp [Spec.next]; grind
      · simpa [Spec.next, upd_other _ _ hg] using hi
    | gotExc g' _ _ _ =>
      by_cases hg : g = g'
      · subst hg; have := hok.1; simp [Spec.next]; grind
      · simpa [Spec.next, upd_other _ _ hg] using hi
    | finished g' x =>
      by_cases hg : g = g'
      · subst hg; have := hok.2; simp [Spec.next]; grind
      · simpa [Spec.next, upd_other _ _ hg] using hi
    | got g' _ _ =>
      obtain ⟨⟨v, hv⟩, _⟩ := hok
      by_cases hg : g = g'
      · subst hg; simp [Spec.next, hv]; grind
      · simpa [Spec.next, hv, upd_other _ _ hg] using hi
    | poked _ g' _ =>
      obtain ⟨_, w, hw⟩ := hok
      by_cases hg : g = g'
      · subst hg; simp [Spec.next]; grind
      · simpa [Spec.next, upd_other _ _ hg] using hi
    | yielded g' _ | returned g' | raised g' _ =>
      obtain ⟨_, k, hk⟩ := hok
      by_cases hg : g = g'
      · subst hg; simp [Spec.next, hk]; grind
      · simpa [Spec.next, hk, upd_other _ _ hg] using hi
    | _ => simpa [Spec.next] using hi

/-- What an AsyncGenerator object owns is exactly what its destructor destroys. -/
theorem C26_drop_destroys_owned (P : Prog σ V E) (ops : List (Op σ)) (pre post : List (Ev V E)) (o : Nat) (x : Option Nat)
    (h : (exec P ops).log = pre ++ .dropped o x :: post) : (Spec.after pre).obj o = .live x ∧ (Spec.after (pre ++ [.dropped o x])).obj o = .dead := by
  have hl := (good_exec P ops).legal
  have hok : Spec.ok (Spec.after pre) (.dropped o x) := hl pre _ post h
  cases x with
  | none => exact ⟨hok, by rw [Spec.after_snoc]; simp [Spec.next]⟩
  | some g => exact ⟨hok.1, by rw [Spec.after_snoc]; simp [Spec.next]⟩

/-- Each frame is destroyed at most once. -/
theorem C26_destroyed_once (P : Prog σ V E) (ops : List (Op σ)) (g : Nat) : destroys g (exec P ops).log ≤ 1 := by
  have hl := (good_exec P ops).legal
  generalize (exec P ops).log = log at *
  induction log using snocInd with
  | nil => simp [destroys]
  | snoc l e ih =>
    have ha : destroys g (l ++ [e]) = destroys g l + destroys g [e] := by simp [destroys]
    have hi := ih hl.prefix
    have hok : Spec.ok (Spec.after l) e := hl l e [] rfl
    by_cases hx : ∃ o, e = .dropped o (some g)
    · obtain ⟨o, rfl⟩ := hx
      have hn : ∀ o, Ev.dropped o (some g) ∉ l := fun o' hm =>
        ((own_legal l hl.prefix).own o g hok.1).2.1 ((gone_iff g l hl.prefix).2 ⟨o', hm⟩)
      have : destroys g l = 0 := by
        rw [destroys, List.countP_eq_zero]
        intro e he
        cases e with
        | dropped o' x => cases x with
          | none => simp
          | some g' => simp; rintro rfl; exact hn o' he
        | _ => simp
      rw [ha, this]; simp [destroys]
    · have : destroys g [e] = 0 := by
        cases e with
        | dropped o' x => cases x with
          | none => simp [destroys]
          | some g' => simp [destroys]; rintro rfl; exact hx ⟨o', rfl⟩
        | _ => simp [destroys]
      rw [ha, this]; exact hi

/-- Move assignment over an object that owns a generator (also onto itself) leaks that generator: its frame is never
destroyed, whatever happens before or afterwards. -/
theorem C26_overwritten_leaks (P : Prog σ V E) (ops : List (Op σ)) (pre post : List (Ev V E)) (d c g : Nat)
    (h : (exec P ops).log = pre ++ .assigned d c :: post) (hg : (Spec.after pre).obj d = .live (some g)) (o : Nat) :
    Ev.dropped o (some g) ∉ (exec P ops).log := by
  have hl := (good_exec P ops).legal
  intro hm
  exact ((own_legal _ hl).lost g ((lost_iff g _).2 ⟨pre, d, c, post, h, hg⟩)).2 ((gone_iff g _ hl).2 ⟨o, hm⟩)

/-- Exactly one of three holds of every generator ever created: it was destroyed (once); or its owner was overwritten
by a move assignment, and it is never destroyed; or exactly one live object owns it. -/
theorem C26_fate (P : Prog σ V E) (ops : List (Op σ)) (hu : (exec P ops).ub = none) (g o : Nat)
    (hc : Ev.created g o ∈ (exec P ops).log) :
    let destroyed := ∃ o, Ev.dropped o (some g) ∈ (exec P ops).log
    let overwritten := ∃ pre d c post, (exec P ops).log = pre ++ .assigned d c :: post ∧ (Spec.after pre).obj d = .live (some g)
    let owned := ∃ o, (Spec.after (exec P ops).log).obj o = .live (some g) ∧
      ∀ o', (Spec.after (exec P ops).log).obj o' = .live (some g) → o' = o
    (destroyed ∧ ¬ overwritten ∧ ¬ owned) ∨ (¬ destroyed ∧ overwritten ∧ ¬ owned) ∨ (¬ destroyed ∧ ¬ overwritten ∧ owned) := by
  have hl := (good_exec P ops).legal
  have ho := own_legal _ hl
  intro destroyed overwritten owned
  have hg : (Spec.after (exec P ops).log).ph g = .gone ↔ destroyed := gone_iff g _ hl
  have how : (Spec.after (exec P ops).log).lost g = true ↔ overwritten := lost_iff g _
  by_cases hd : destroyed
  · left
    refine ⟨hd, fun h => (ho.lost g (how.2 h)).2 (hg.2 hd), ?_⟩
    rintro ⟨o, h, _⟩; exact (ho.own o g h).2.1 (hg.2 hd)
  · right
    cases h : (Spec.after (exec P ops).log).lost g with
    | true =>
      left
      refine ⟨hd, how.1 h, ?_⟩
      rintro ⟨o, h', _⟩; have := (ho.own o g h').2.2; rw [h] at this; cases this
    | false =>
      right
      refine ⟨hd, (fun h' => by rw [how.2 h'] at h; cases h), C26_owned P ops hu g o hc (fun o h => hd ⟨o, h⟩) h⟩

/-! ### Exactly which actions are undefined behaviour -/

/-- Specification: what is wrong about advancing a generator in a phase; `gone`: what is wrong if it was destroyed. -/
def advanceMisuse (gone : Option Ub) : Ph V E → Option Ub
  | .gone => gone
  | .over => some .resumeDone
  | .active _ => some .resumeBusy
  | _ => none

/-- Specification: what is wrong about dereferencing an iterator of a generator in a phase. -/
def derefMisuse : Ph V E → Option Ub
  | .gone => some .iterDangling
  | .at _ => none
  | _ => some .derefEnd

/-- Specification: what goes wrong when producer `k` hands control to the consumer it works for. -/
def handOver (S : Spec V E) (k : Nat) : Option Ub :=
  match S.ph k with
  | .active j => match S.ph j with | .gone => some (.consumerDestroyed j) | _ => none
  | _ => none

/-- Specification: producer `g` is executing: a consumer waits for it, and it is itself neither in a begin()/++ nor in another co_await. -/
def executing (S : Spec V E) (g : Nat) : Bool :=
  match S.ph g with
  | .active _ => (S.cw g).isNone && !S.susp g
  | _ => false

/-- Specification: what an action of the running coroutine `k` in abstract state `S` does wrong, if anything. -/
def misuse (S : Spec V E) (k : Nat) : Act σ V E → Option Ub
  | .create _ | .mkNull | .work _ | .awaitExt => none
  | .begin o =>
    match S.obj o with
    | .live none => none
    | .live (some g) => advanceMisuse none (S.ph g)
    | _ => some .deadObject
  | .inc i =>
    match S.it i with
    | none => some .badIter
    | some none => some .incEnd
    | some (some g) => advanceMisuse (some .iterDangling) (S.ph g)
  | .copyIt i | .isEnd i => match S.it i with | none => some .badIter | some _ => none
  | .deref i | .poke i _ =>
    match S.it i with
    | none => some .badIter
    | some none => some .derefEnd
    | some (some g) => derefMisuse (S.ph g)
  | .moveNew o => match S.obj o with | .live _ => none | _ => some .deadObject
  | .moveAssign d c | .swap d c =>
    match S.obj d, S.obj c with
    | .live _, .live _ => none
    | _, _ => some .deadObject
  | .drop o =>
    match S.obj o with
    | .live (some g) => if executing S g then some .destroyRunning else none
    | .live none => none
    | _ => some .deadObject
  | .yield _ => match S.ph k with | .plain => some .yieldOutside | _ => handOver S k
  | .ret | .throw _ => handOver S k

theorem awaitResume_ub (s : State σ V E) (g k : Nat) (c : Call) : (s.awaitResume g k c).ub = s.ub := by
  cases c <;> simp only [State.awaitResume] <;> repeat' split
  all_goals rfl

theorem advance_misuse (s : State σ V E) (k g : Nat) (c : Call) (bad : Ub) (hu : s.ub = none) (hw : WF (s.fr g)) (hn : (s.fr g).status ≠ .unborn)
    (hg : (s.fr g).isGen = true) : (s.advance k g c bad).ub = advanceMisuse (some bad) (absPh (s.fr g)) := by
  have h1 := hw.yld
  have h2 := hw.act
  clear hw
  unfold State.advance
  cases hf : (s.fr g).freed <;> cases hs : (s.fr g).status <;> cases hv : (s.fr g).value <;> cases hc : (s.fr g).consumer <;>
    simp_all [absPh, advanceMisuse, State.fail, State.emit, Status.active]

theorem advance_live (f : Frame σ V E) (bad : Ub) (hf : f.freed = false) (hw : WF f) :
    advanceMisuse (some bad) (absPh f) = advanceMisuse none (absPh f) := by
  have h1 := hw.yld
  have h2 := hw.act
  clear hw
  cases hs : f.status <;> cases hv : f.value <;> cases hc : f.consumer <;> cases hg : f.isGen <;> simp_all [absPh, advanceMisuse, Status.active]

theorem deref_misuse (s : State σ V E) (g : Nat) (A : V → State σ V E) (hA : ∀ v, (A v).ub = none) (hw : WF (s.fr g))
    (hn : (s.fr g).status ≠ .unborn) (hg : (s.fr g).isGen = true) :
    (if (s.fr g).freed then s.fail .iterDangling
      else match (s.fr g).status, (s.fr g).value with
        | .atYield, some v => A v
        | _, _ => s.fail .derefEnd).ub = derefMisuse (absPh (s.fr g)) := by
  have h1 := hw.yld
  have h2 := hw.act
  clear hw
  cases hf : (s.fr g).freed <;> cases hs : (s.fr g).status <;> cases hv : (s.fr g).value <;> cases hc : (s.fr g).consumer <;>
    simp_all [absPh, derefMisuse, State.fail, Status.active]

theorem executing_iff {s : State σ V E} (h : Inv s) {o g : Nat} (ho : s.obj o = .live (some g)) :
    executing (Spec.after s.log) g = true ↔ (s.fr g).status = .running := by
  have hw := h.own o g ho
  have ha := (h.wf g).act
  have hy := (h.wf g).yld
  unfold executing
  rw [h.ph, h.cw, h.susp]
  cases hs : (s.fr g).status <;> cases hc : (s.fr g).consumer <;> cases hv : (s.fr g).value <;>
    simp_all [absPh, absCw, absSusp, Status.active]

theorem act_misuse {s : State σ V E} (h : Inv s) (hu : s.ub = none) {k : Nat} {rest : List Nat} (hcur : s.stack = k :: rest) (a : Act σ V E) :
    (s.act k a).ub = misuse (Spec.after s.log) k a := by
  have hph := h.ph
  have hrun := (h.cur k).2 (by simp [hcur])
  have htr : ∀ (f : Frame σ V E) (e : Ev V E), (s.fr k).isGen = true → f.consumer = (s.fr k).consumer →
      ((({ s with fr := upd s.fr k f } : State σ V E).emit e).transfer k).ub = handOver (Spec.after s.log) k := by
    intro f e hg hfc
    have hf := (h.wf k).run hrun
    obtain ⟨j, hj⟩ := Option.isSome_iff_exists.mp (((h.wf k).act (by simp [hrun, Status.active])).2 hg)
    obtain ⟨c, hjw⟩ := h.cons k j hf hg (by simp [hrun, Status.active]) hj
    have hjk : j ≠ k := by intro e; subst e; rw [hrun] at hjw; cases hjw
    have hp : (Spec.after s.log).ph k = .active j := by rw [hph]; simp [absPh, hrun, hf, hg, hj]
    simp only [handOver, hp]
    rw [hph]
    cases hjf : (s.fr j).freed with
    | true => simp [State.transfer, State.emit, State.fail, hfc, hj, upd_other _ _ hjk, hjf, absPh]
    | false =>
      have : absPh (s.fr j) ≠ .gone := by
        have hw2 := (h.wf j).act
        simp [absPh, hjf, hjw]
        split
        · cases hc : (s.fr j).consumer <;> simp
        · simp
      simp only [State.transfer, State.emit, hfc, hj, upd_same, upd_other _ _ hjk, hjf, hjw]
      revert this; generalize absPh (s.fr j) = p; cases p <;> simp [awaitResume_ub, hu]
  cases a with
  | create b => simp [State.act, State.reply, State.emit, misuse, hu]
  | mkNull => simp [State.act, State.reply, State.emit, misuse, hu]
  | work n => simp [State.act, State.reply, State.emit, misuse, hu]
  | awaitExt => simp [State.act, State.emit, misuse, hu]
  | begin o =>
    simp only [State.act, misuse, h.obj]
    cases ho : s.obj o with
    | live x =>
      cases x with
      | none => simp [State.reply, State.emit, hu]
      | some g =>
        have hown := h.own o g ho
        simp only []
        rw [advance_misuse s k g _ _ hu (h.wf g) hown.2.1 hown.2.2, advance_live _ _ hown.1 (h.wf g), hph]
    | _ => simp [State.fail]
  | inc i =>
    simp only [State.act, misuse, h.it]
    cases hi : s.it i with
    | none => simp [State.fail]
    | some x =>
      cases x with
      | none => simp [State.fail]
      | some g => simp only []; rw [advance_misuse s k g _ _ hu (h.wf g) (h.itG i g hi).1 (h.itG i g hi).2, hph]
  | copyIt i =>
    simp only [State.act, misuse, h.it]
    cases hi : s.it i <;> simp [State.reply, State.emit, State.fail, hu]
  | isEnd i =>
    simp only [State.act, misuse, h.it]
    cases hi : s.it i <;> simp [State.reply, State.emit, State.fail, hu]
  | deref i =>
    simp only [State.act, misuse, h.it]
    cases hi : s.it i with
    | none => simp [State.fail]
    | some x =>
      cases x with
      | none => simp [State.fail]
      | some g =>
        simp only [hph]
        exact deref_misuse s g _ (fun v => by simp [State.reply, State.emit, hu]) (h.wf g) (h.itG i g hi).1 (h.itG i g hi).2
  | poke i v =>
    simp only [State.act, misuse, h.it]
    cases hi : s.it i with
    | none => simp [State.fail]
    | some x =>
      cases x with
      | none => simp [State.fail]
      | some g =>
        simp only [hph]
        exact deref_misuse s g _ (fun w => by simp [State.reply, State.emit, hu]) (h.wf g) (h.itG i g hi).1 (h.itG i g hi).2
  | moveNew o =>
    simp only [State.act, misuse, h.obj]
    cases ho : s.obj o <;> simp [State.reply, State.emit, State.fail, hu]
  | moveAssign d c =>
    simp only [State.act, misuse, h.obj]
    cases hd : s.obj d <;> cases hc : s.obj c <;> simp [State.reply, State.emit, State.fail, hu]
  | swap d c =>
    simp only [State.act, misuse, h.obj]
    cases hd : s.obj d <;> cases hc : s.obj c <;> simp [State.reply, State.emit, State.fail, hu]
  | drop o =>
    simp only [State.act, misuse, h.obj]
    cases ho : s.obj o with
    | live x =>
      cases x with
      | none => simp [State.reply, State.emit, hu]
      | some g =>
        have hown := h.own o g ho
        have hex := executing_iff h ho
        by_cases e : (s.fr g).status = .running
        · simp [State.fail, hown.1, e, hex]
        · have : executing (Spec.after s.log) g = false := by simpa [e] using hex
          simp [hown.1, e, this, State.reply, State.emit, hu]
    | _ => simp [State.fail]
  | yield v =>
    simp only [State.act, misuse]
    have hf := (h.wf k).run hrun
    cases hg : (s.fr k).isGen with
    | true =>
      obtain ⟨j, hj⟩ := Option.isSome_iff_exists.mp (((h.wf k).act (by simp [hrun, Status.active])).2 hg)
      have hp : (Spec.after s.log).ph k = .active j := by rw [hph]; simp [absPh, hrun, hf, hg, hj]
      simp only [hp, if_true]
      exact htr _ _ hg rfl
    | false =>
      have hp : (Spec.after s.log).ph k = .plain := by rw [hph]; simp [absPh, hrun, hf, hg]
      simp [hp, State.fail]
  | ret =>
    simp only [State.act, misuse]
    have hf := (h.wf k).run hrun
    cases hg : (s.fr k).isGen with
    | true => simp only [if_true]; exact htr _ _ hg rfl
    | false =>
      have hp : (Spec.after s.log).ph k = .plain := by rw [hph]; simp [absPh, hrun, hf, hg]
      simp [handOver, hp, State.emit, hu]
  | throw e =>
    simp only [State.act, misuse]
    have hf := (h.wf k).run hrun
    cases hg : (s.fr k).isGen with
    | true => simp only [if_true]; exact htr _ _ hg rfl
    | false =>
      have hp : (Spec.after s.log).ph k = .plain := by rw [hph]; simp [absPh, hrun, hf, hg]
      simp [handOver, hp, State.emit, hu]

/-- An action of the running coroutine is undefined behaviour exactly if the specification says it is a misuse, and
then that one; everything else is well defined.  In particular destroying an AsyncGenerator never is, whatever its
producer is doing, unless that producer is executing (a coroutine destroys itself or the one it was called from). -/
theorem C26_ub_iff_misuse (P : Prog σ V E) (ops : List (Op σ)) (k : Nat) (st : σ) (hu : (exec P ops).ub = none)
    (hcur : (exec P ops).stack.head? = some k) (hst : ((exec P ops).fr k).st = some st) :
    (exec P (ops ++ [.tick])).ub = misuse (Spec.after ((exec P ops).log ++ [.ran k])) k (P.next st ((exec P ops).fr k).inp).2 := by
  have hi := (good_exec P ops).inv hu
  rw [exec_snoc]
  generalize exec P ops = s at *
  obtain ⟨rest, hcur⟩ : ∃ rest, s.stack = k :: rest := by
    cases hs : s.stack with
    | nil => simp [hs] at hcur
    | cons a l => simp [hs] at hcur; exact ⟨l, by rw [hcur]⟩
  have h1 := hi.bodySt k (P.next st (s.fr k).inp).1 .unit
  have : step P s .tick = (({ s with fr := upd s.fr k { s.fr k with st := some (P.next st (s.fr k).inp).1, inp := .unit } } : State σ V E).emit (.ran k)).act k (P.next st (s.fr k).inp).2 := by
    simp [step, hu, hcur, hst]
  rw [this]
  generalize hs1 : ({ s with fr := upd s.fr k { s.fr k with st := some (P.next st (s.fr k).inp).1, inp := .unit } } : State σ V E) = s1 at h1
  have hc1 : s1.stack = k :: rest := by subst hs1; exact hcur
  have h2 : Inv (s1.emit (.ran k)) := h1.emitQuiet _ (h1.runnable (by simp [hc1])) rfl
  rw [act_misuse (s := s1.emit (.ran k)) h2 (by subst hs1; exact hu) hc1]
  subst hs1; rfl

/-- An external operation completing is undefined behaviour exactly if the coroutine awaiting it was destroyed. -/
theorem C26_completion_ub_iff (P : Prog σ V E) (ops : List (Op σ)) (c : Nat) (hu : (exec P ops).ub = none) :
    ((exec P (ops ++ [.ext c])).ub ≠ none ↔ (Spec.after (exec P ops).log).susp c = true ∧ ∃ o, Ev.dropped o (some c) ∈ (exec P ops).log) ∧
    ((exec P (ops ++ [.ext c])).ub ≠ none → (exec P (ops ++ [.ext c])).ub = some (.resumeDestroyed c)) := by
  have hi := (good_exec P ops).inv hu
  rw [← gone_iff c _ (good_exec P ops).legal, exec_snoc]
  generalize exec P ops = s at *
  rw [hi.susp, hi.ph]
  have hw := hi.wf c
  have hw1 := hw.yld; have hw2 := hw.act; have hw3 := hw.unb
  have he : step P s (.ext c) = if (s.fr c).status = .waitExt then
      if (s.fr c).freed then s.fail (.resumeDestroyed c)
      else ({ s with fr := upd s.fr c { s.fr c with status := .running, inp := .unit }, stack := c :: s.stack } : State σ V E).emit (.resumed c)
    else s := by simp [step, hu]
  rw [he]
  by_cases hs : (s.fr c).status = .waitExt
  · rw [if_pos hs]
    cases hf : (s.fr c).freed with
    | true => simp [State.fail, absSusp, absPh, hs, hf]
    | false =>
      cases hg : (s.fr c).isGen <;> cases hc : (s.fr c).consumer <;> simp [State.emit, hu, absSusp, absPh, hs, hf, hg, hc]
  · rw [if_neg hs]
    have : absSusp (s.fr c) = false := by unfold absSusp; split <;> simp_all
    simp [hu, this]

/-- A generator destroyed while its producer is in a co_await of its own: that co_await dangles for ever; whenever the
awaited operation completes (in the event loop or inside an executing body), a destroyed coroutine is resumed. -/
theorem C26_destroyed_while_awaiting_ub (P : Prog σ V E) (ops : List (Op σ)) (pre post : List (Ev V E)) (o c : Nat)
    (hu : (exec P ops).ub = none) (h : (exec P ops).log = pre ++ .dropped o (some c) :: post)
    (hs : (Spec.after pre).susp c = true) : (exec P (ops ++ [.ext c])).ub = some (.resumeDestroyed c) := by
  have hl := (good_exec P ops).legal
  have hx := C26_completion_ub_iff P ops c hu
  refine hx.2 (hx.1.2 ⟨?_, o, by rw [h]; simp⟩)
  have hd := C26_dead_stays_dead P ops pre post c o h
  rw [h]
  have key : ∀ l : List (Ev V E), (∀ e ∈ l, e ≠ .resumed c) → (Spec.after (pre ++ [.dropped o (some c)] ++ l)).susp c = true := by
    intro l
    induction l using snocInd with
    | nil => intro _; rw [List.append_nil, Spec.after_snoc]; exact hs
    | snoc l e ih =>
      intro hn
      have hi := ih (fun e he => hn e (by simp [he]))
      have hne := hn e (by simp)
      rw [← List.append_assoc, Spec.after_snoc]
      generalize Spec.after (pre ++ [.dropped o (some c)] ++ l) = S at *
      cases e with
      | suspended c' => simp only [Spec.next, upd_apply]; split <;> simp_all
      | resumed c' => simp only [Spec.next]; rw [upd_other _ _ (fun e => hne (by rw [e]))]; exact hi
      | dropped o' x => cases x <;> exact hi
      | _ => exact hi
  have := key post (fun e he => (hd e he).2.1)
  simpa using this

/-! ### Concrete cases -/

-- the hypotheses of C26_destroyed_while_awaiting_ub: consumer in begin(), producer awaiting, another coroutine drops the generator
example : let s := exec demo [.spawn (.p 200), .tick, .tick, .tick, .spawn (.p 500), .tick, .tick]
    s.ub = none ∧ s.stack = [] ∧ s.log.getLast? ≠ none ∧ .dropped 0 (some 1) ∈ s.log ∧ (Spec.after s.log).susp 1 = true := by decide
-- the hypotheses of C26_fate, overwritten case
example : let s := exec demo [.spawn (.p 600), .tick, .tick, .tick, .tick, .tick, .tick]
    s.ub = none ∧ .created 1 0 ∈ s.log ∧ .created 2 1 ∈ s.log ∧ .assigned 0 1 ∈ s.log ∧ .dropped 0 (some 2) ∈ s.log := by decide
-- nesting: while producer 1 executes it calls a plain coroutine (2); that runs to its end and control is back in the producer
example : let s := exec demo [.spawn (.p 200), .tick, .tick, .spawn (.p 501)]
    s.ub = none ∧ s.stack = [2, 1] ∧ (exec demo [.spawn (.p 200), .tick, .tick, .spawn (.p 501), .tick]).stack = [1] := by decide
-- … but if what it calls destroys its generator, the executing producer is destroyed: the misuse `destroyRunning`
example : (exec demo [.spawn (.p 200), .tick, .tick, .spawn (.p 500), .tick]).ub = some .destroyRunning := by decide
-- a completion inside an executing body: coroutine 2 executes and completes what producer 1 awaits; 1 runs on top of 2 and hands control to
-- its consumer 0, also on top of 2
example : let s := exec demo [.spawn (.p 200), .tick, .tick, .tick, .spawn (.p 501), .ext 1]
    s.ub = none ∧ s.stack = [1, 2] ∧
    (exec demo [.spawn (.p 200), .tick, .tick, .tick, .spawn (.p 501), .ext 1, .tick]).stack = [0, 2] := by decide

end QCoro.AGen
