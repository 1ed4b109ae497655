import Verif.AsyncGen.Pipeline
/-!
C75: chains of generators do not deadlock.
-/
set_option linter.unusedSimpArgs false
namespace QCoro.AGen
variable {σ V E : Type}

/-- `Behind S k j`: `k` is suspended in begin()/++ of a generator that is `j`, or that is itself suspended in begin()/++ of … `j`.
Specification, no counterpart in /repo. -/
inductive Behind (S : Spec V E) : Nat → Nat → Prop
  | direct {k j : Nat} : S.cw k = some j → Behind S k j
  | via {k g j : Nat} : S.cw k = some g → Behind S g j → Behind S k j

/-- Phases in which a coroutine may be suspended in begin()/++. -/
def Ph.mayWait : Ph V E → Bool
  | .plain | .active _ | .gone => true
  | _ => false

/-- Phases of a generator that consumer `k` is waiting for. -/
def Ph.awaitedBy (k : Nat) : Ph V E → Bool
  | .active k' | .offered _ k' | .ended k' | .failed _ k' => k' == k
  | .gone => true
  | _ => false

structure Waits (S : Spec V E) : Prop where
  idle : ∀ g, (S.ph g).mayWait = false → S.cw g = none
  tgt : ∀ k g, S.cw k = some g → (S.ph g).awaitedBy k = true
  rank : ∃ r : Nat → Nat, ∀ k g, S.cw k = some g → r g < r k

theorem Waits.clear {S S' : Spec V E} (h : Waits S) {k g : Nat} {p : Ph V E} (hk : S.cw k = some g) (hg : (S.ph g).mayWait = false) (hgk : (S.ph g).awaitedBy k = true)
    (hng : S.ph g ≠ .gone) (hcw : S'.cw = upd S.cw k none) (hph : S'.ph = upd S.ph g p) : Waits S' := by
  obtain ⟨h1, h2, r, h3⟩ := h
  refine ⟨fun x hx => ?_, fun a b hab => ?_, r, fun a b hab => ?_⟩
  · rw [hcw, upd_apply]
    split
    · rfl
    · by_cases e : x = g
      · subst e; exact h1 _ hg
      · rw [hph, upd_other _ _ e] at hx; exact h1 _ hx
  · rw [hcw, upd_apply] at hab
    split at hab
    · cases hab
    · rename_i hak
      by_cases e : b = g
      · subst e
        have e1 := h2 _ _ hab
        have e2 := h2 _ _ hk
        cases hp : S.ph b <;> simp_all [Ph.awaitedBy]
      · rw [hph, upd_other _ _ e]; exact h2 _ _ hab
  · rw [hcw, upd_apply] at hab
    split at hab
    · cases hab
    · exact h3 _ _ hab

/-- A change of the phase of `g` only. -/
theorem Waits.phase {S S' : Spec V E} (h : Waits S) {g : Nat} {p : Ph V E} (hcw : S'.cw = S.cw) (hph : S'.ph = upd S.ph g p)
    (h1 : p.mayWait = false → S.cw g = none) (h2 : ∀ k, S.cw k = some g → p.awaitedBy k = true) : Waits S' := by
  obtain ⟨e1, e2, r, e3⟩ := h
  refine ⟨fun x hx => ?_, fun a b hab => ?_, r, fun a b hab => ?_⟩
  · rw [hcw]
    by_cases e : x = g
    · subst e; rw [hph, upd_same] at hx; exact h1 hx
    · rw [hph, upd_other _ _ e] at hx; exact e1 _ hx
  · rw [hcw] at hab
    by_cases e : b = g
    · subst e; rw [hph, upd_same]; exact h2 _ hab
    · rw [hph, upd_other _ _ e]; exact e2 _ _ hab
  · rw [hcw] at hab; exact e3 _ _ hab

theorem Waits.same {S S' : Spec V E} (h : Waits S) (hcw : S'.cw = S.cw) (hph : S'.ph = S.ph) : Waits S' :=
  ⟨by rw [hcw, hph]; exact h.idle, by rw [hcw, hph]; exact h.tgt, by rw [hcw]; exact h.rank⟩

theorem Waits.next {S : Spec V E} (h : Waits S) (e : Ev V E) (hok : S.ok e) : Waits (S.next e) := by
  have nobody : ∀ {g}, (∀ k, (S.ph g).awaitedBy k = false) → ∀ k, S.cw k ≠ some g := fun hg k hk => by
    have := h.tgt _ _ hk; rw [hg] at this; cases this
  cases e with
  | spawned c =>
    refine h.phase (g := c) (p := .plain) rfl rfl (by simp [Ph.mayWait]) (fun k hk => absurd hk (nobody ?_ k))
    intro k; rw [show S.ph c = .unborn from hok]; rfl
  | created g o =>
    refine h.phase (g := g) (p := .fresh) rfl rfl (fun _ => h.idle _ ?_) (fun k hk => absurd hk (nobody ?_ k))
    · rw [hok.1]; rfl
    · intro k; rw [hok.1]; rfl
  | adv g k c =>
    obtain ⟨hr, hg, _⟩ := hok
    have hgi : S.cw g = none := h.idle g (by rcases hg with e | ⟨v, e⟩ <;> rw [e] <;> rfl)
    have hgn : ∀ k, S.cw k ≠ some g := nobody (fun k => by rcases hg with e | ⟨v, e⟩ <;> rw [e] <;> rfl)
    have hne : g ≠ k := by
      rintro rfl
      rcases hr.2.2 with e | ⟨k', e, hk'⟩
      · rcases hg with e' | ⟨v, e'⟩ <;> rw [e] at e' <;> cases e'
      · rcases hg with e' | ⟨v, e'⟩ <;> rw [e] at e' <;> cases e'
    obtain ⟨r, hrk⟩ := h.rank
    refine ⟨fun x hx => ?_, fun a b hab => ?_, fun x => if x = g then 0 else r x + 1, fun a b hab => ?_⟩
    · simp only [Spec.next] at hx ⊢
      by_cases e : x = g
      · subst e; rw [upd_other _ _ hne]; exact hgi
      · rw [upd_other _ _ e] at hx
        by_cases e' : x = k
        · subst e'
          rcases hr.2.2 with e | ⟨k', e, _⟩ <;> rw [e] at hx <;> simp [Ph.mayWait] at hx
        · rw [upd_other _ _ e']; exact h.idle _ hx
    · simp only [Spec.next] at hab ⊢
      by_cases e : a = k
      · subst e
        rw [upd_same] at hab; cases hab
        rw [upd_same]; simp [Ph.awaitedBy]
      · rw [upd_other _ _ e] at hab
        have hb : b ≠ g := by rintro rfl; exact hgn _ hab
        rw [upd_other _ _ hb]; exact h.tgt _ _ hab
    · simp only [Spec.next] at hab ⊢
      by_cases e : a = k
      · subst e
        rw [upd_same] at hab; cases hab
        rw [if_pos rfl, if_neg (Ne.symm hne)]; omega
      · rw [upd_other _ _ e] at hab
        have hb : b ≠ g := by rintro rfl; exact hgn _ hab
        have ha : a ≠ g := by rintro rfl; rw [hgi] at hab; cases hab
        have := hrk _ _ hab
        rw [if_neg hb, if_neg ha]; omega
  | yielded g v =>
    obtain ⟨hr, k, hk⟩ := hok
    refine h.phase (g := g) (p := .offered v k) rfl (by simp [Spec.next, hk]) (fun _ => hr.1) (fun x hx => ?_)
    have := h.tgt _ _ hx; rw [hk] at this; exact this
  | returned g =>
    obtain ⟨hr, k, hk⟩ := hok
    refine h.phase (g := g) (p := .ended k) rfl (by simp [Spec.next, hk]) (fun _ => hr.1) (fun x hx => ?_)
    have := h.tgt _ _ hx; rw [hk] at this; exact this
  | raised g e =>
    obtain ⟨hr, k, hk⟩ := hok
    refine h.phase (g := g) (p := .failed e k) rfl (by simp [Spec.next, hk]) (fun _ => hr.1) (fun x hx => ?_)
    have := h.tgt _ _ hx; rw [hk] at this; exact this
  | finished c e =>
    obtain ⟨hr, hp⟩ := hok
    refine h.phase (g := c) (p := .plainOver) rfl rfl (fun _ => hr.1) (fun k hk => absurd hk (nobody ?_ k))
    intro k; rw [hp]; rfl
  | got g k i =>
    obtain ⟨⟨v, hv⟩, hk, _⟩ := hok
    exact h.clear (p := .at v) hk (by rw [hv]; rfl) (by rw [hv]; simp [Ph.awaitedBy]) (by rw [hv]; simp) rfl (by simp [Spec.next, hv])
  | gotEnd g k i =>
    obtain ⟨hv, hk, _⟩ := hok
    exact h.clear (p := .over) hk (by rw [hv]; rfl) (by rw [hv]; simp [Ph.awaitedBy]) (by rw [hv]; simp) rfl rfl
  | gotExc g k c e =>
    obtain ⟨hv, hk, _⟩ := hok
    exact h.clear (p := .over) hk (by rw [hv]; rfl) (by rw [hv]; simp [Ph.awaitedBy]) (by rw [hv]; simp) rfl rfl
  | poked i g v =>
    obtain ⟨_, w, hw⟩ := hok
    refine h.phase (g := g) (p := .at v) rfl rfl (fun _ => h.idle _ (by rw [hw]; rfl)) (fun k hk => absurd hk (nobody ?_ k))
    intro k; rw [hw]; rfl
  | dropped o x =>
    cases x with
    | none => exact h.same rfl rfl
    | some g => exact h.phase (g := g) (p := .gone) rfl rfl (by simp [Ph.mayWait]) (fun k _ => rfl)
  | _ => exact h.same rfl rfl

theorem waits_log (log : List (Ev V E)) (h : Legal Spec.next Spec.ok {} log) : Waits (Spec.after log) := by
  induction log using snocInd with
  | nil => exact ⟨fun _ _ => rfl, fun k g hk => by simp [Spec.after] at hk, fun _ => 0, fun k g hk => by simp [Spec.after] at hk⟩
  | snoc log e ih => rw [Spec.after_snoc]; exact (ih h.prefix).next e (h _ e [] rfl)

theorem behind_end {S : Spec V E} (h : Waits S) {k g : Nat} (hk : S.cw k = some g) : ∃ j k', Behind S k j ∧ S.cw k' = some j ∧ S.cw j = none := by
  obtain ⟨r, hr⟩ := h.rank
  obtain ⟨n, hn⟩ : ∃ n, n = r k := ⟨_, rfl⟩
  induction n using Nat.strongRecOn generalizing k g with
  | _ n ih =>
    cases hg : S.cw g with
    | none => exact ⟨g, k, .direct hk, hk, hg⟩
    | some g' =>
      obtain ⟨j, k', h1, h2, h3⟩ := ih (r g) (by rw [hn]; exact hr _ _ hk) hg rfl
      exact ⟨j, k', .via hk h1, h2, h3⟩

/-- C75. No deadlock: whenever a coroutine is suspended in begin()/++ – in every run, between any two steps, whatever generators loop over
whatever others –, at the end of the chain it waits for is a generator that is executing, or awaiting something else than a generator, or
destroyed.  In particular nobody ever waits, directly or indirectly, for itself. -/
theorem C75_no_deadlock (P : Prog σ V E) (ops : List (Op σ)) (hu : (exec P ops).ub = none) (k g : Nat) (hk : (Spec.after (exec P ops).log).cw k = some g) :
    (∃ j, Behind (Spec.after (exec P ops).log) k j ∧
      (j ∈ (exec P ops).stack ∨ (Spec.after (exec P ops).log).susp j = true ∨ (Spec.after (exec P ops).log).ph j = .gone)) ∧
    ¬ Behind (Spec.after (exec P ops).log) k k := by
  have hi := (good_exec P ops).inv hu
  have hW := waits_log _ (good_exec P ops).legal
  refine ⟨?_, ?_⟩
  · obtain ⟨j, k', h1, h2, h3⟩ := behind_end hW hk
    refine ⟨j, h1, ?_⟩
    have hp := hW.tgt _ _ h2
    rw [hi.cw] at h3
    rw [hi.ph] at hp
    rw [hi.susp, hi.ph, ← hi.cur]
    simp only [absPh, absCw, absSusp] at hp h3 ⊢
    by_cases hf : ((exec P ops).fr j).freed = true
    · exact .inr (.inr (by simp [hf]))
    · rw [if_neg hf] at hp
      cases hs : ((exec P ops).fr j).status with
      | running => exact .inl rfl
      | waitExt => exact .inr (.inl rfl)
      | waitGen a b => rw [hs] at h3; simp at h3
      | unborn => rw [hs] at hp; simp [Ph.awaitedBy] at hp
      | initial => rw [hs] at hp; simp [Ph.awaitedBy] at hp
      | atYield =>
        rw [hs] at hp
        obtain ⟨v, hv⟩ : ∃ v, ((exec P ops).fr j).value = v := ⟨_, rfl⟩
        cases v <;> simp [Ph.awaitedBy, hv] at hp
      | done =>
        rw [hs] at hp
        obtain ⟨v, hv⟩ : ∃ v, ((exec P ops).fr j).isGen = v := ⟨_, rfl⟩
        cases v <;> simp [Ph.awaitedBy, hv] at hp
  · obtain ⟨r, hr⟩ := hW.rank
    have : ∀ {a b}, Behind (Spec.after (exec P ops).log) a b → r b < r a := by
      intro a b h
      induction h with
      | direct h => exact hr _ _ h
      | via h _ ih => have := hr _ _ h; omega
    intro h
    have := this h
    omega

end QCoro.AGen
