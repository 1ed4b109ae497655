import Verif.Generator.Props

/-! C22: the exact ownership discipline of `Generator` objects (`qcorogenerator.h:236-257`): the owner's destructor destroys the
frame; a move assignment over an owner loses the frame for ever (it is never destroyed), and nothing else does. -/
namespace QCoro.Gen
variable {σ V E : Type} {S : Spec V E}

/-- What every legal history keeps true of owners. -/
structure Own (S : Spec V E) : Prop where
  own : ∀ o g, S.obj o = .live (some g) → S.ph g ≠ .unborn ∧ S.ph g ≠ .gone ∧ S.lost g = false
  uniq : ∀ o o' g, S.obj o = .live (some g) → S.obj o' = .live (some g) → o = o'
  lost : ∀ g, S.lost g = true → S.ph g ≠ .unborn ∧ S.ph g ≠ .gone

/-- Events that only change phases, and never from or to `unborn`/`gone`. -/
theorem Own.phase (h : Own S) {T : Spec V E} (ho : T.obj = S.obj) (hl : T.lost = S.lost)
    (hp : ∀ g, S.ph g ≠ .unborn ∧ S.ph g ≠ .gone → T.ph g ≠ .unborn ∧ T.ph g ≠ .gone) : Own T := by
  refine ⟨?_, ?_, ?_⟩
  · intro o g e; rw [ho] at e; have := h.own o g e; rw [hl]; have q := hp g ⟨this.1, this.2.1⟩; exact ⟨q.1, q.2, this.2.2⟩
  · intro o o' g; rw [ho]; exact h.uniq o o' g
  · intro g e; rw [hl] at e; exact hp g (h.lost g e)

theorem Own.upd_ph (h : Own S) (g : Nat) (p : Ph V E) {T : Spec V E} (ho : T.obj = S.obj) (hl : T.lost = S.lost)
    (hT : T.ph = upd S.ph g p) (hp : p ≠ .unborn ∧ p ≠ .gone) : Own T := by
  refine h.phase ho hl ?_
  intro g' hg'
  rw [hT]
  by_cases e : g' = g
  · subst e; simpa using hp
  · rw [upd_other _ _ e]; exact hg'

theorem Own.step (h : Own S) (e : Ev V E) (hok : S.ok e) : Own (S.next e) := by
  cases e with
  | created g o =>
    obtain ⟨hu, ho⟩ := hok
    refine ⟨?_, ?_, ?_⟩
    · intro o' g' he
      simp only [Spec.next] at he ⊢
      by_cases ho' : o' = o
      · subst ho'; simp at he; subst he
        simp
        cases hl : S.lost g with
        | false => rfl
        | true => exact absurd hu (h.lost g hl).1
      · rw [upd_other _ _ ho'] at he
        have := h.own o' g' he
        have hg : g' ≠ g := fun e => this.1 (e ▸ hu)
        rw [upd_other _ _ hg]; exact this
    · intro o1 o2 g' h1 h2
      simp only [Spec.next, upd_apply] at h1 h2
      have hn : ∀ o', S.obj o' ≠ .live (some g) := fun o' e => (h.own o' g e).1 hu
      have := h.uniq o1 o2 g'
      grind
    · intro g' hl
      simp only [Spec.next] at hl ⊢
      have := h.lost g' hl
      have hg : g' ≠ g := fun e => this.1 (e ▸ hu)
      rw [upd_other _ _ hg]; exact this
  | adv g c x => exact h.upd_ph g .running rfl rfl rfl (by simp)
  | yielded g v => exact h.upd_ph g (.offered v) rfl rfl rfl (by simp)
  | returned g => exact h.upd_ph g .ended rfl rfl rfl (by simp)
  | raised g e => exact h.upd_ph g (.failed e) rfl rfl rfl (by simp)
  | gotEnd g i => exact h.upd_ph g .over rfl rfl rfl (by simp)
  | gotExc g c e => exact h.upd_ph g .over rfl rfl rfl (by simp)
  | poked g v => exact h.upd_ph g (.at v) rfl rfl rfl (by simp)
  | got g i =>
    obtain ⟨⟨v, hv⟩, _⟩ := hok
    exact h.upd_ph g (.at v) rfl rfl (by simp [Spec.next, hv]) (by simp)
  | ran _ | work _ _ | incEnd _ | mkEnd _ | copied _ _ | cmp _ _ _ | read _ _ => exact h.phase rfl rfl (fun _ h => h)
  | mkNull o =>
    refine ⟨?_, ?_, h.lost⟩
    · intro o' g he; simp only [Spec.next, upd_apply] at he; have := h.own o' g; simp only [Spec.next]; grind
    · intro o1 o2 g h1 h2; simp only [Spec.next, upd_apply] at h1 h2; have := h.uniq o1 o2 g; grind
  | moved o n =>
    obtain ⟨⟨x, hx⟩, hn⟩ := hok
    refine ⟨?_, ?_, h.lost⟩
    · intro o' g he; simp only [Spec.next, upd_apply] at he ⊢; have := h.own o' g; have := h.own o g; grind
    · intro o1 o2 g h1 h2; simp only [Spec.next, upd_apply] at h1 h2
      have := h.uniq o1 o2 g; have := h.uniq o1 o g; have := h.uniq o o2 g; grind
  | assigned d c =>
    obtain ⟨⟨x, hx⟩, ⟨y, hy⟩⟩ := hok
    refine ⟨?_, ?_, ?_⟩
    · intro o' g he; simp only [Spec.next, upd_apply, hx] at he ⊢
      have h1 := h.own o' g; have h2 := h.own c g; have h3 := h.uniq o' d g; have h4 := h.uniq c d g
      cases x with
      | none => grind
      | some gd =>
        have : g ≠ gd := by grind
        simp only [upd_other _ _ this]; grind
    · intro o1 o2 g h1 h2; simp only [Spec.next, upd_apply] at h1 h2
      have := h.uniq o1 o2 g; have := h.uniq o1 c g; have := h.uniq c o2 g; grind
    · intro g hl
      simp only [Spec.next, hx] at hl ⊢
      cases x with
      | none => exact h.lost g hl
      | some gd =>
        by_cases e : g = gd
        · subst e; have := h.own d g hx; exact ⟨this.1, this.2.1⟩
        · simp only [upd_other _ _ e] at hl; exact h.lost g hl
  | dropped o x =>
    cases x with
    | none =>
      refine ⟨?_, ?_, h.lost⟩
      · intro o' g he; simp only [Spec.next, upd_apply] at he; have := h.own o' g; simp only [Spec.next]; grind
      · intro o1 o2 g h1 h2; simp only [Spec.next, upd_apply] at h1 h2; have := h.uniq o1 o2 g; grind
    | some gd =>
      obtain ⟨hx, _⟩ := hok
      refine ⟨?_, ?_, ?_⟩
      · intro o' g he; simp only [Spec.next, upd_apply] at he ⊢
        have := h.own o' g; have := h.uniq o' o g; grind
      · intro o1 o2 g h1 h2; simp only [Spec.next, upd_apply] at h1 h2; have := h.uniq o1 o2 g; grind
      · intro g hl; simp only [Spec.next, upd_apply] at hl ⊢
        have := h.lost g hl; have := h.own o gd hx; grind

theorem own_legal (log : List (Ev V E)) (h : Legal Spec.next Spec.ok {} log) : Own (Spec.after log) := by
  induction log using snocInd with
  | nil => exact ⟨fun o g e => by simp [Spec.after] at e, fun o o' g e => by simp [Spec.after] at e, fun g e => by simp [Spec.after] at e⟩
  | snoc l e ih => rw [Spec.after_snoc]; exact (ih h.prefix).step e (h l e [] rfl)

theorem lost_stays (g : Nat) (p l : List (Ev V E)) (h : (Spec.after p).lost g = true) : (Spec.after (p ++ l)).lost g = true := by
  induction l using snocInd with
  | nil => simpa using h
  | snoc l e ih =>
    rw [← List.append_assoc, Spec.after_snoc]
    generalize Spec.after (p ++ l) = S at *
    cases e with
    | assigned d c =>
      simp only [Spec.next]
      cases hd : S.obj d with
      | live x => cases x <;> simp_all [upd_apply]
      | _ => simp_all
    | dropped o x => cases x <;> exact ih
    | _ => exact ih

theorem dropped_pos {g o : Nat} {log : List (Ev V E)} (h : Ev.dropped o (some g) ∈ log) : 0 < destroys g log :=
  List.countP_pos_iff.2 ⟨_, h, by simp⟩

/-- What a Generator object owns is exactly what its destructor destroys: dropping an object reports the generator the
object owned at that moment, and destroys nothing else. -/
theorem C22_drop_destroys_owned (P : Prog σ V E) (ops : List (Op σ V)) (pre post : List (Ev V E)) (o : Nat) (x : Option Nat)
    (h : (exec P ops).log = pre ++ .dropped o x :: post) : (Spec.after pre).obj o = .live x ∧ (Spec.after (pre ++ [.dropped o x])).obj o = .dead := by
  have hl := (good_exec P ops).legal
  have hok : Spec.ok (Spec.after pre) (.dropped o x) := hl pre _ post h
  cases x with
  | none => exact ⟨hok, by rw [Spec.after_snoc]; simp [Spec.next]⟩
  | some g => exact ⟨hok.1, by rw [Spec.after_snoc]; simp [Spec.next]⟩

/-- Move assignment over an object that owns a generator (also onto itself) leaks that generator: its frame is never
destroyed, whatever happens before or afterwards. -/
theorem C22_overwritten_leaks (P : Prog σ V E) (ops : List (Op σ V)) (pre post : List (Ev V E)) (d c g : Nat)
    (h : (exec P ops).log = pre ++ .assigned d c :: post) (hg : (Spec.after pre).obj d = .live (some g)) :
    destroys g (exec P ops).log = 0 := by
  have hl := (good_exec P ops).legal
  have h0 : (Spec.after (pre ++ [.assigned d c])).lost g = true := by rw [Spec.after_snoc]; simp [Spec.next, hg]
  have h1 := lost_stays g _ post h0
  rw [show (pre ++ [Ev.assigned d c]) ++ post = (exec P ops).log by rw [h]; simp] at h1
  have h2 := ((own_legal _ hl).lost g h1).2
  rw [legal_destroys g _ hl]
  generalize (Spec.after (exec P ops).log).ph g = p at *
  cases p <;> simp_all

/-- The only way to lose a generator is to be overwritten by a move assignment. -/
theorem lost_iff (g : Nat) (log : List (Ev V E)) : (Spec.after log).lost g = true ↔
    ∃ pre d c post, log = pre ++ .assigned d c :: post ∧ (Spec.after pre).obj d = .live (some g) := by
  constructor
  · induction log using snocInd with
    | nil => simp [Spec.after]
    | snoc l e ih =>
      rw [Spec.after_snoc]
      intro h
      by_cases hl : (Spec.after l).lost g = true
      · obtain ⟨pre, d, c, post, rfl, h2⟩ := ih hl
        exact ⟨pre, d, c, post ++ [e], by simp, h2⟩
      · cases e with
        | assigned d c =>
          refine ⟨l, d, c, [], rfl, ?_⟩
          simp only [Spec.next] at h
          cases hd : (Spec.after l).obj d with
          | live x =>
            cases x with
            | none => simp only [hd] at h; exact absurd h hl
            | some g' =>
              simp only [hd] at h
              by_cases e : g = g'
              · rw [e]
              · rw [upd_other _ _ e] at h; exact absurd h hl
          | _ => simp only [hd] at h; exact absurd h hl
        | dropped o x => cases x <;> exact absurd h hl
        | _ => exact absurd h hl
  · rintro ⟨pre, d, c, post, rfl, h⟩
    rw [show pre ++ Ev.assigned d c :: post = (pre ++ [.assigned d c]) ++ post by simp]
    exact lost_stays g _ post (by rw [Spec.after_snoc]; simp [Spec.next, h])

/-- Exactly one of three holds of every generator ever created: it was destroyed, exactly once; or its owner was
overwritten by a move assignment, and it is never destroyed; or exactly one live object owns it. -/
theorem C22_fate (P : Prog σ V E) (ops : List (Op σ V)) (hu : (exec P ops).ub = none) (g o : Nat)
    (hc : Ev.created g o ∈ (exec P ops).log) :
    let overwritten := ∃ pre d c post, (exec P ops).log = pre ++ .assigned d c :: post ∧ (Spec.after pre).obj d = .live (some g)
    let owned := ∃ o, (Spec.after (exec P ops).log).obj o = .live (some g) ∧
      ∀ o', (Spec.after (exec P ops).log).obj o' = .live (some g) → o' = o
    (destroys g (exec P ops).log = 1 ∧ ¬ overwritten ∧ ¬ owned) ∨ (destroys g (exec P ops).log = 0 ∧ overwritten ∧ ¬ owned) ∨
      (destroys g (exec P ops).log = 0 ∧ ¬ overwritten ∧ owned) := by
  have hl := (good_exec P ops).legal
  have ho := own_legal _ hl
  have hd := legal_destroys g _ hl
  have hb : (Spec.after (exec P ops).log).ph g ≠ .unborn := by
    clear hu ho hd
    generalize (exec P ops).log = log at *
    obtain ⟨pre, post, rfl⟩ := List.append_of_mem hc
    rw [show pre ++ Ev.created g o :: post = (pre ++ [.created g o]) ++ post by simp] at hl ⊢
    have h0 : (Spec.after (pre ++ [.created g o])).ph g ≠ .unborn := by rw [Spec.after_snoc]; simp [Spec.next]
    generalize pre ++ [Ev.created g o] = p at *
    clear hc
    induction post using snocInd with
    | nil => simpa using h0
    | snoc l e ih =>
      rw [← List.append_assoc] at hl ⊢
      have := ih hl.prefix
      have hok : Spec.ok (Spec.after (p ++ l)) e := hl _ e [] rfl
      rw [Spec.after_snoc]
      generalize Spec.after (p ++ l) = S at *
      cases e with
      | got g' i => obtain ⟨⟨v, hv⟩, _⟩ := hok; simp only [Spec.next, hv, upd_apply]; split <;> simp_all
      | dropped o' x => cases x with
        | none => exact this
        | some g' => simp only [Spec.next, upd_apply]; split <;> simp_all
      | created _ _ | adv _ _ _ | yielded _ _ | returned _ | raised _ _ | gotEnd _ _ | gotExc _ _ _ | poked _ _ => simp only [Spec.next, upd_apply]; split <;> simp_all
      | _ => exact this
  intro overwritten owned
  have how : (Spec.after (exec P ops).log).lost g = true ↔ overwritten := lost_iff g _
  by_cases hg : (Spec.after (exec P ops).log).ph g = .gone
  · left
    refine ⟨by rw [hd, hg]; rfl, fun h => (ho.lost g (how.2 h)).2 hg, ?_⟩
    rintro ⟨o, h, _⟩; exact (ho.own o g h).2.1 hg
  · right
    have h0 : destroys g (exec P ops).log = 0 := by
      rw [hd]; generalize (Spec.after (exec P ops).log).ph g = p at *; cases p <;> simp_all
    cases h : (Spec.after (exec P ops).log).lost g with
    | true =>
      left
      refine ⟨h0, how.1 h, ?_⟩
      rintro ⟨o, h', _⟩; have := (ho.own o g h').2.2; rw [h] at this; cases this
    | false =>
      right
      refine ⟨h0, (fun h' => by rw [how.2 h'] at h; cases h), C22_owned P ops hu g hb h0 h⟩

/-! ### Exactly which calls are undefined behaviour -/

/-- Specification: what is wrong about advancing a generator in a phase; `gone`: what is wrong if it was destroyed. -/
def advanceMisuse (gone : Option Ub) : Ph V E → Option Ub
  | .gone => gone
  | .over => some .resumeDone
  | .running => some .resumeRunning
  | _ => none

/-- Specification: what is wrong about dereferencing an iterator of a generator in a phase. -/
def derefMisuse : Ph V E → Option Ub
  | .gone => some .iterDangling
  | .over | .running | .fresh => some .derefEnd
  | _ => none

/-- Specification: what a call made in abstract state `S` does wrong, if anything.  Only the history visible to the
user is consulted. -/
def misuse (S : Spec V E) : Api σ V → Option Ub
  | .create _ | .mkNull | .endIt | .work _ => none
  | .begin o =>
    match S.obj o with
    | .live none => some .nullBegin
    | .live (some g) => advanceMisuse none (S.ph g)
    | _ => some .deadObject
  | .inc i =>
    match S.it i with
    | none => some .badIter
    | some none => none
    | some (some g) => advanceMisuse (some .iterDangling) (S.ph g)
  | .copyIt i => if S.it i = none then some .badIter else none
  | .cmp i j => if S.it i = none ∨ S.it j = none then some .badIter else none
  | .deref i | .poke i _ =>
    match S.it i with
    | none => some .badIter
    | some none => some .derefEnd
    | some (some g) => derefMisuse (S.ph g)
  | .moveNew o => match S.obj o with | .live _ => none | _ => some .deadObject
  | .moveAssign d c =>
    match S.obj d, S.obj c with
    | .live _, .live _ => none
    | _, _ => some .deadObject
  | .drop o =>
    match S.obj o with
    | .live (some g) => match S.ph g with | .running => some .destroyRunning | _ => none
    | .live none => none
    | _ => some .deadObject

theorem reply_ub (s : State σ V E) (r : Resp V E) : (s.reply r).ub = s.ub := by unfold State.reply; split <;> rfl

theorem api_ub {s : State σ V E} (h : Inv s) (hu : s.ub = none) (a : Api σ V) : (s.api a).ub = misuse (Spec.after s.log) a := by
  have hph : ∀ g, (Spec.after s.log).ph g = absPh (s.fr g) := fun g => by rw [h.ph]
  have hres : ∀ g c bad, (s.fr g).status ≠ .unborn → (s.resume g c bad).ub = advanceMisuse (some bad) (absPh (s.fr g)) := by
    intro g c bad hn
    have hw := (h.wf g).yld
    unfold State.resume
    cases hf : (s.fr g).freed <;> cases hs : (s.fr g).status <;> cases hv : (s.fr g).value <;>
      simp_all [absPh, advanceMisuse, State.fail, State.emit]
  have hder : ∀ g, (s.fr g).status ≠ .unborn → ∀ A : V → State σ V E, (∀ v, (A v).ub = none) →
      (if (s.fr g).freed then s.fail .iterDangling
      else match (s.fr g).status, (s.fr g).value with
        | .yielded, some v => A v
        | _, _ => s.fail .derefEnd).ub = derefMisuse (absPh (s.fr g)) := by
    intro g hn A hA
    have hw := (h.wf g).yld
    cases hf : (s.fr g).freed <;> cases hs : (s.fr g).status <;> cases hv : (s.fr g).value <;>
      simp_all [absPh, derefMisuse, State.fail]
  cases a with
  | create b => simp [State.api, reply_ub, State.emit, misuse, hu]
  | mkNull => simp [State.api, reply_ub, State.emit, misuse, hu]
  | endIt => simp [State.api, reply_ub, State.emit, misuse, hu]
  | work n => simp [State.api, reply_ub, State.emit, misuse, hu]
  | begin o =>
    simp only [State.api, misuse, h.obj, hph]
    cases ho : s.obj o with
    | live x =>
      cases x with
      | none => simp [State.fail]
      | some g =>
        have := h.own o g ho
        simp only []
        rw [hres g _ _ this.2]
        have hw := (h.wf g).yld
        cases hs : (s.fr g).status <;> cases hv : (s.fr g).value <;> simp_all [absPh, advanceMisuse]
    | _ => simp [State.fail]
  | inc i =>
    simp only [State.api, misuse, h.it, hph]
    cases hi : s.it i with
    | none => simp [State.fail]
    | some x =>
      cases x with
      | none => simp [reply_ub, State.emit, hu]
      | some g => simp only []; rw [hres g _ _ (h.itG i g hi)]
  | copyIt i =>
    simp only [State.api, misuse, h.it]
    cases hi : s.it i <;> simp [reply_ub, State.emit, State.fail, hu]
  | cmp i j =>
    simp only [State.api, misuse, h.it]
    cases hi : s.it i <;> cases hj : s.it j <;> simp [reply_ub, State.emit, State.fail, hu]
  | deref i =>
    simp only [State.api, misuse, h.it, hph]
    cases hi : s.it i with
    | none => simp [State.fail]
    | some x =>
      cases x with
      | none => simp [State.fail]
      | some g => exact hder g (h.itG i g hi) _ (fun v => by simp [reply_ub, State.emit, hu])
  | poke i v =>
    simp only [State.api, misuse, h.it, hph]
    cases hi : s.it i with
    | none => simp [State.fail]
    | some x =>
      cases x with
      | none => simp [State.fail]
      | some g => exact hder g (h.itG i g hi) _ (fun _ => by simp [reply_ub, State.emit, hu])
  | moveNew o =>
    simp only [State.api, misuse, h.obj]
    cases ho : s.obj o <;> simp [reply_ub, State.emit, State.fail, hu]
  | moveAssign d c =>
    simp only [State.api, misuse, h.obj]
    cases hd : s.obj d <;> cases hc : s.obj c <;> simp [reply_ub, State.emit, State.fail, hu]
  | drop o =>
    simp only [State.api, misuse, h.obj, hph]
    cases ho : s.obj o with
    | live x =>
      cases x with
      | none => simp [reply_ub, State.emit, hu]
      | some g =>
        have := h.own o g ho
        have hw := (h.wf g).yld
        cases hs : (s.fr g).status <;> cases hv : (s.fr g).value <;>
          simp_all [absPh, State.fail, reply_ub, State.emit]
    | _ => simp [State.fail]

/-- A call made by the main program, while no generator body runs, is undefined behaviour exactly if it is one of the
misuses the specification names, and then that one: `begin()` on an empty, destroyed or finished generator, use of an
iterator whose generator is destroyed or finished, use of a destroyed object.  Everything else is well defined. -/
theorem C22_ub_iff_misuse (P : Prog σ V E) (ops : List (Op σ V)) (a : Api σ V) (hu : (exec P ops).ub = none)
    (hidle : ∀ g, (Spec.after (exec P ops).log).ph g ≠ .running) :
    (exec P (ops ++ [.main a])).ub = misuse (Spec.after (exec P ops).log) a := by
  have hi := (good_exec P ops).inv hu
  have hs : (exec P ops).stack = [] := by
    cases hs : (exec P ops).stack with
    | nil => rfl
    | cons x r =>
      have h1 := (hi.run x.1).2 (by simp [hs])
      have h2 := hidle x.1
      rw [hi.ph] at h2
      have := (hi.wf x.1).run h1
      simp [absPh, h1, this.2] at h2
  rw [exec_snoc]
  generalize exec P ops = s at *
  have : step P s (.main a) = s.api a := by simp [step, hu, hs]
  rw [this]; exact api_ub hi hu a

/-- The same for a call made inside a running generator body `g` (the innermost of those running). -/
theorem C22_ub_iff_misuse_in_body (P : Prog σ V E) (ops : List (Op σ V)) (g : Nat) (c : Call) (rest : List (Nat × Call)) (st : σ)
    (a : Api σ V) (hu : (exec P ops).ub = none) (hs : (exec P ops).stack = (g, c) :: rest) (hst : ((exec P ops).fr g).st = some st)
    (ha : (P.next st ((exec P ops).fr g).inp).2 = .api a) :
    (exec P (ops ++ [.tick])).ub = misuse (Spec.after ((exec P ops).log ++ [.ran g])) a := by
  have hi := (good_exec P ops).inv hu
  rw [exec_snoc]
  generalize exec P ops = s at *
  have hrun : (s.fr g).status = .running := (hi.run g).2 (by simp [hs])
  have h1 := hi.bodySt hrun (P.next st (s.fr g).inp).1 .unit
  have : step P s .tick = (({ s with fr := upd s.fr g { s.fr g with st := some (P.next st (s.fr g).inp).1, inp := .unit } } : State σ V E).emit (.ran g)).api a := by
    simp [step, hu, hs, hst, ha, State.body]
  rw [this]
  generalize hs1 : ({ s with fr := upd s.fr g { s.fr g with st := some (P.next st (s.fr g).inp).1, inp := .unit } } : State σ V E) = s1 at h1
  have hrun1 : (s1.fr g).status = .running := by subst hs1; simpa using hrun
  have h2 : Inv (s1.emit (.ran g)) := by
    refine h1.emitQuiet _ ?_ rfl
    show (Spec.after s1.log).ph g = _
    rw [h1.ph]; simp [absPh, hrun1, ((h1.wf g).run hrun1).2]
  rw [api_ub h2 (by subst hs1; exact hu) a]
  subst hs1; rfl

/-- A body that yields, returns or throws is never undefined behaviour, unless it was started by `begin()` on an object
that no longer owns it then: the body itself (or something it called) moved, reassigned or dropped that object. -/
theorem C22_body_leaves (P : Prog σ V E) (ops : List (Op σ V)) (g : Nat) (c : Call) (rest : List (Nat × Call)) (st : σ)
    (hu : (exec P ops).ub = none) (hs : (exec P ops).stack = (g, c) :: rest) (hst : ((exec P ops).fr g).st = some st)
    (ha : ∀ a, (P.next st ((exec P ops).fr g).inp).2 ≠ .api a) :
    (exec P (ops ++ [.tick])).ub = none ↔ ∀ o, c = .begin o → (Spec.after (exec P ops).log).obj o = .live (some g) := by
  have hi := (good_exec P ops).inv hu
  rw [exec_snoc]
  generalize exec P ops = s at *
  have hrun : (s.fr g).status = .running := (hi.run g).2 (by simp [hs])
  have hf := ((hi.wf g).run hrun)
  rw [hi.obj]
  cases c with
  | inc i =>
    have hit := hi.inc g i (by simp [hs])
    simp only [step, hu, hs, hst]
    cases hx : (P.next st (s.fr g).inp).2 with
    | api a => exact absurd hx (ha a)
    | yield v => simp [State.body, State.after, State.afterInc, State.emit, hit, hf.2, reply_ub, hu]
    | ret => simp [State.body, State.after, State.afterInc, State.emit, hit, hf.1, hf.2, reply_ub, hu]
    | throw e => simp [State.body, State.after, State.afterInc, State.emit, hit, hf.1, hf.2, reply_ub, hu]
  | begin o =>
    simp only [step, hu, hs, hst]
    have : (∀ o', Call.begin o = .begin o' → s.obj o' = .live (some g)) ↔ s.obj o = .live (some g) := by
      constructor
      · intro h; exact h o rfl
      · rintro h o' e; cases e; exact h
    rw [this]
    cases hx : (P.next st (s.fr g).inp).2 with
    | api a => exact absurd hx (ha a)
    | _ =>
      cases ho : s.obj o with
      | live x =>
        cases x with
        | none => simp [State.body, State.after, State.afterBegin, State.emit, State.fail, ho]
        | some h' =>
          by_cases e : h' = g
          · subst e; simp [State.body, State.after, State.afterBegin, State.emit, ho, hf.1, hf.2, reply_ub, hu]
          · simp [State.body, State.after, State.afterBegin, State.emit, State.fail, ho, e]
      | _ => simp [State.body, State.after, State.afterBegin, State.emit, State.fail, ho]

/-! ### Concrete cases -/

-- one generator destroyed with its owner, one overwritten, one still owned
example : let s := exec demo [.main (.create 0), .main (.create 0), .main (.create 0), .main (.moveAssign 0 1), .main (.drop 0)]
    s.ub = none ∧ destroys 0 s.log = 0 ∧ destroys 1 s.log = 1 ∧ s.obj 2 = .live (some 2) ∧ .created 0 0 ∈ s.log ∧ .assigned 0 1 ∈ s.log := by decide

-- the hypotheses of the misuse theorems, and each kind of misuse of `begin()`
example : (exec demo [.main .mkNull]).ub = none ∧ misuse (σ := Nat) (Spec.after (exec demo [.main .mkNull]).log) (.begin 0) = some .nullBegin := by decide
example : misuse (σ := Nat) (Spec.after (exec demo [.main (.create 3), .main (.begin 0), .tick]).log) (.begin 0) = some .resumeDone := by decide
example : misuse (σ := Nat) (Spec.after (exec demo [.main (.create 0), .main (.begin 0), .tick, .main (.drop 0)]).log) (.inc 0) = some .iterDangling := by decide
example : misuse (σ := Nat) (Spec.after (exec demo [.main (.create 0), .main (.begin 0), .tick]).log) (.deref 0) = none := by decide
example : let s := exec demo [.main (.create 0), .main (.begin 0)]
    s.ub = none ∧ s.stack = [(0, .begin 0)] ∧ (s.fr 0).st = some 0 ∧ (demo.next 0 (s.fr 0).inp).2 = .yield 10 := ⟨by decide, by decide, by decide, rfl⟩

end QCoro.Gen
