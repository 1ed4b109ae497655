import Verif.AsyncGen.Step
set_option linter.unusedSimpArgs false
namespace QCoro.AGen
variable {σ V E : Type}

/-- Coroutine `c` was destroyed (with the AsyncGenerator object owning it) while it was suspended in a co_await of its
own, i.e. between the resumption by begin()/++ and its next co_yield. -/
def AbandonedBusy (c : Nat) (log : List (Ev V E)) : Prop :=
  ∃ pre o post k, log = pre ++ .dropped o (some c) :: post ∧ (Spec.after pre).ph c = .active k

theorem AbandonedBusy.mono {c : Nat} {l m : List (Ev V E)} (h : AbandonedBusy c l) : AbandonedBusy c (l ++ m) := by
  obtain ⟨pre, o, post, k, rfl, hk⟩ := h
  exact ⟨pre, o, post ++ m, k, by simp, hk⟩

/-- In legal logs a destroyed coroutine that is still registered somewhere was abandoned while busy. -/
theorem legal_abandoned (log : List (Ev V E)) (h : Legal Spec.next Spec.ok {} log) (c : Nat) :
    ((Spec.after log).ph c = .gone → ((Spec.after log).susp c = true ∨ (Spec.after log).cw c ≠ none) → AbandonedBusy c log) ∧
    (((Spec.after log).susp c = true ∨ (Spec.after log).cw c ≠ none) →
      (Spec.after log).ph c = .gone ∨ (Spec.after log).ph c = .plain ∨ ∃ k, (Spec.after log).ph c = .active k) := by
  induction log using snocInd with
  | nil => simp [Spec.after]
  | snoc l e ih =>
    obtain ⟨i1, i2⟩ := ih h.prefix
    have hok : Spec.ok (Spec.after l) e := h l e [] rfl
    rw [Spec.after_snoc]
    have mono : AbandonedBusy c l → AbandonedBusy c (l ++ [e]) := AbandonedBusy.mono
    have drp : ∀ o k, e = .dropped o (some c) → (Spec.after l).ph c = .active k → AbandonedBusy c (l ++ [e]) :=
      fun o k he hk => ⟨l, o, [], k, by rw [he], hk⟩
    generalize AbandonedBusy c (l ++ [e]) = A at *
    generalize AbandonedBusy c l = B at *
    generalize Spec.after l = S at *
    cases e with
    | dropped o x =>
      cases x with
      | none => simpa [Spec.next] using ⟨fun a b => mono (i1 a b), i2⟩
      | some g =>
        by_cases hg : c = g
        · subst hg
          simp only [Spec.next, upd_same]
          refine ⟨fun _ hb => ?_, fun _ => .inl trivial⟩
          rcases i2 hb with e | e | ⟨k, e⟩
          · exact mono (i1 e hb)
          · rcases hok.2 with x | ⟨v, x⟩ | x | ⟨⟨k, x⟩, _⟩ <;> simp [e] at x
          · exact drp o k rfl e
        · simp only [Spec.next, upd_other _ _ hg]
          exact ⟨fun a b => mono (i1 a b), i2⟩
    | spawned g | created g _ =>
      by_cases hg : c = g
      · subst hg
        simp only [Spec.next, upd_same]
        refine ⟨by simp, fun hb => ?_⟩
        have := i2 hb
        simp_all [Spec.ok]
      · simp only [Spec.next, upd_other _ _ hg]
        exact ⟨fun a b => mono (i1 a b), i2⟩
    | finished g x =>
      by_cases hg : c = g
      · subst hg
        simp only [Spec.next, upd_same]
        refine ⟨by simp, fun hb => ?_⟩
        obtain ⟨⟨h1, h2, _⟩, _⟩ := hok
        simp [h1, h2] at hb
      · simp only [Spec.next, upd_other _ _ hg]
        exact ⟨fun a b => mono (i1 a b), i2⟩
    | adv g k cl =>
      obtain ⟨hr, hg0, _⟩ := hok
      simp only [Spec.next]
      by_cases hg : c = g
      · subst hg
        simp only [upd_same]
        exact ⟨by simp, fun _ => .inr (.inr ⟨k, rfl⟩)⟩
      · rw [upd_other _ _ hg]
        by_cases hk : c = k
        · subst hk
          refine ⟨fun a _ => ?_, fun _ => ?_⟩
          · rcases hr.2.2 with e | ⟨_, e, _⟩ <;> simp [a] at e
          · rcases hr.2.2 with e | ⟨k', e, _⟩
            · exact .inr (.inl e)
            · exact .inr (.inr ⟨k', e⟩)
        · rw [upd_other _ _ hk]; exact ⟨fun a b => mono (i1 a b), i2⟩
    | suspended g =>
      simp only [Spec.next]
      by_cases hg : c = g
      · subst hg
        refine ⟨fun a _ => ?_, fun _ => ?_⟩
        · rcases hok.2.2 with e | ⟨_, e, _⟩ <;> simp [a] at e
        · rcases hok.2.2 with e | ⟨k', e, _⟩
          · exact .inr (.inl e)
          · exact .inr (.inr ⟨k', e⟩)
      · rw [upd_other _ _ hg]; exact ⟨fun a b => mono (i1 a b), i2⟩
    | resumed g =>
      simp only [Spec.next]
      by_cases hg : c = g
      · subst hg
        simp only [upd_same]
        obtain ⟨h1, h2, h3⟩ := hok
        simp [h2]
      · rw [upd_other _ _ hg]; exact ⟨fun a b => mono (i1 a b), i2⟩
    | yielded g _ | returned g | raised g _ =>
      obtain ⟨⟨h1, h2, _⟩, k, hk⟩ := hok
      simp only [Spec.next, hk]
      by_cases hg : c = g
      · subst hg; simp [h1, h2]
      · simp only [upd_other _ _ hg]; exact ⟨fun a b => mono (i1 a b), i2⟩
    | got g k i =>
      obtain ⟨⟨v, hv⟩, hcw, _⟩ := hok
      simp only [Spec.next, hv]
      have e1 : ∀ x, (upd S.ph g (Ph.at v)) c = x → x = .at v ∨ S.ph c = x := by
        intro x; simp only [upd_apply]; split
        · intro e; exact .inl e.symm
        · exact fun e => .inr e
      by_cases hg : c = g
      · subst hg
        refine ⟨by simp, ?_⟩
        simp only [upd_apply]
        intro hb
        have : S.susp c = true ∨ S.cw c ≠ none := by
          rcases hb with x | x
          · exact .inl x
          · split at x
            · simp at x
            · exact .inr x
        have := i2 this
        simp [hv] at this
      · rw [upd_other _ _ hg]
        have imp : (S.susp c = true ∨ (upd S.cw k none) c ≠ none) → (S.susp c = true ∨ S.cw c ≠ none) := by
          simp only [upd_apply]; rintro (x | x)
          · exact .inl x
          · split at x
            · simp at x
            · exact .inr x
        exact ⟨fun a b => mono (i1 a (imp b)), fun b => i2 (imp b)⟩
    | gotEnd g k i =>
      obtain ⟨hv, hcw, _⟩ := hok
      simp only [Spec.next]
      have imp : (S.susp c = true ∨ (upd S.cw k none) c ≠ none) → (S.susp c = true ∨ S.cw c ≠ none) := by
        simp only [upd_apply]; rintro (x | x)
        · exact .inl x
        · split at x
          · simp at x
          · exact .inr x
      by_cases hg : c = g
      · subst hg
        refine ⟨by simp, fun hb => ?_⟩
        have := i2 (imp hb)
        simp [hv] at this
      · rw [upd_other _ _ hg]
        exact ⟨fun a b => mono (i1 a (imp b)), fun b => i2 (imp b)⟩
    | gotExc g k cl e =>
      obtain ⟨hv, hcw, _⟩ := hok
      simp only [Spec.next]
      have imp : (S.susp c = true ∨ (upd S.cw k none) c ≠ none) → (S.susp c = true ∨ S.cw c ≠ none) := by
        simp only [upd_apply]; rintro (x | x)
        · exact .inl x
        · split at x
          · simp at x
          · exact .inr x
      by_cases hg : c = g
      · subst hg
        refine ⟨by simp, fun hb => ?_⟩
        have := i2 (imp hb)
        simp [hv] at this
      · rw [upd_other _ _ hg]
        exact ⟨fun a b => mono (i1 a (imp b)), fun b => i2 (imp b)⟩
    | poked i g v =>
      obtain ⟨_, w, hw⟩ := hok
      by_cases hg : c = g
      · subst hg
        simp only [Spec.next, upd_same]
        refine ⟨by simp, fun hb => ?_⟩
        have := i2 hb
        simp [hw] at this
      · simp only [Spec.next, upd_other _ _ hg]
        exact ⟨fun a b => mono (i1 a b), i2⟩
    | _ => exact ⟨fun a b => mono (i1 a b), i2⟩

/-- Invariant of all reachable states, also those with undefined behaviour. -/
structure Good (s : State σ V E) : Prop where
  legal : Legal Spec.next Spec.ok {} s.log
  ub : s.ub ≠ some .doubleDestroy ∧ s.ub ≠ some .ownerDangling ∧ s.ub ≠ some .stuck
  safe : ∀ c, s.ub = some (.resumeDestroyed c) ∨ s.ub = some (.consumerDestroyed c) → AbandonedBusy c s.log
  inv : s.ub = none → Inv s

theorem Inv.good {s : State σ V E} (h : Inv s)
    (hs : ∀ c, s.ub = some (.resumeDestroyed c) ∨ s.ub = some (.consumerDestroyed c) → AbandonedBusy c s.log) : Good s :=
  ⟨h.legal, h.ub, hs, fun _ => h⟩

theorem Inv.good' {s : State σ V E} (h : Inv s) (hs : s.ub = none) : Good s :=
  h.good (by intro c hc; rw [hs] at hc; rcases hc with x | x <;> cases x)

/-- Producer `g` suspends or finishes (`e1`), control goes to consumer `k`, whose begin()/++ reports `e2`. -/
theorem pop_inv {s : State σ V E} (h : Inv s) {g k : Nat} {c : Call} {rest : List Nat} (hcur : s.stack = g :: rest)
    (hgn : (s.fr g).isGen = true) (hcons : (s.fr g).consumer = some k) (hkf : (s.fr k).freed = false)
    (hkw : (s.fr k).status = .waitGen g c)
    (f : Frame σ V E) (e1 e2 : Ev V E) (r : Resp V E)
    (it' : Nat → Option (Option Nat)) (ni' : Nat)
    (hf : f.freed = false) (hst : f.status = .atYield ∨ f.status = .done) (hwf : WF f) (hfg : f.isGen = true)
    (ok1 : (Spec.after s.log).ok e1) (ok2 : ((Spec.after s.log).next e1).ok e2)
    (nph : (((Spec.after s.log).next e1).next e2).ph = upd (Spec.after s.log).ph g (absPh f))
    (ncw : (((Spec.after s.log).next e1).next e2).cw = upd (Spec.after s.log).cw k none)
    (nsu : (((Spec.after s.log).next e1).next e2).susp = (Spec.after s.log).susp)
    (nit : (((Spec.after s.log).next e1).next e2).it = it')
    (nob : (((Spec.after s.log).next e1).next e2).obj = (Spec.after s.log).obj)
    (nlo : (((Spec.after s.log).next e1).next e2).lost = (Spec.after s.log).lost)
    (hit : ∀ k' g' i, k' ≠ k → (s.fr k').status = .waitGen g' (.inc i) → it' i = some (some g'))
    (hitB : ∀ i, ni' ≤ i → it' i = none) (hitS : ∀ i, i < ni' → it' i ≠ none)
    (hitG : ∀ i g', it' i = some (some g') → g' = g ∨ s.it i = some (some g')) :
    Inv { s with fr := upd (upd s.fr g f) k { s.fr k with status := .running, inp := r }, stack := k :: rest,
                 it := it', ni := ni', log := s.log ++ [e1] ++ [e2] } := by
  have hrun : (s.fr g).status = .running := (h.cur g).2 (by simp [hcur])
  have hnb : f.status ≠ .unborn := by rcases hst with e | e <;> simp [e]
  have hna : f.status.active = false := by rcases hst with e | e <;> simp [e, Status.active]
  have hnr : f.status ≠ .running := by rcases hst with e | e <;> simp [e]
  have hnw : ∀ g' c', f.status ≠ .waitGen g' c' := by intro g' c'; rcases hst with e | e <;> simp [e]
  have hkg : k ≠ g := by intro e; subst e; rw [hrun] at hkw; cases hkw
  have hgk : g ≠ k := fun e => hkg e.symm
  have wk := h.wf k
  have fg : ∀ c', (upd (upd s.fr g f) k { s.fr k with status := .running, inp := r }) c' =
      if c' = k then { s.fr k with status := .running, inp := r } else if c' = g then f else s.fr c' := by
    intro c'; simp only [upd_apply]
  -- nobody else waits for g
  have only : ∀ k' c', (s.fr k').status = .waitGen g c' → k' = k := by
    intro k' c' e
    rcases h.wait _ _ _ e with x | x
    · rw [(h.wf g).run hrun] at x; cases x
    · rw [hcons] at x; exact (Option.some.inj x.2.2).symm
  have hnd := h.nd
  rw [hcur] at hnd
  simp at hnd
  have hks : k ∉ s.stack := by rw [← h.cur, hkw]; simp
  have hkr : k ∉ rest := fun x => hks (by simp [hcur, x])
  refine ⟨?_, ?_, ?_, List.nodup_cons.2 ⟨hkr, hnd.2⟩, ?_, ?_, ?_, ?_, h.uniq, h.objB, hitB, hitS, ?_, ?_, ?_, ?_, ?_, ?_, ?_, ?_, h.ub⟩
  · intro c'; simp only [fg]; split
    · refine ⟨fun _ => wk.st (by simp [hkw]), by simp, by simp, by simp, fun _ => wk.act (by simp [hkw, Status.active]), fun _ => hkf, wk.gen⟩
    · split
      · exact hwf
      · exact h.wf c'
  · intro c'; simp only [fg]; split
    · rename_i e; subst e; simp [(h.born c').2 (by simp [hkw])]
    · split
      · rename_i e; subst e; simp [hnb, (h.born c').2 (by simp [hrun])]
      · exact h.born c'
  · intro c'; simp only [fg]; split
    · rename_i e; subst e; simp
    · rename_i e; split
      · rename_i e2; subst e2; simp [hnr, e, hnd.1]
      · rename_i e2; rw [h.cur c', hcur]; simp [e, e2]
  · intro k' g' c' hk'
    simp only [fg] at hk' ⊢
    by_cases e1 : k' = k
    · subst e1; simp at hk'
    · rw [if_neg e1] at hk'
      by_cases e2 : k' = g
      · subst e2; simp at hk'; exact absurd hk' (hnw _ _)
      · rw [if_neg e2] at hk'
        have hg'g : g' ≠ g := by intro e; subst e; exact e1 (only k' c' hk')
        have := h.wait k' g' c' hk'
        by_cases e3 : g' = k
        · subst e3; simp only [if_true]
          rcases this with x | x
          · exact .inl x
          · exact .inr ⟨by simp [Status.active], x.2⟩
        · rw [if_neg e3, if_neg hg'g]; exact this
  · intro g' k' h1 h2 h3 h4
    simp only [fg] at h1 h2 h3 h4 ⊢
    by_cases e1 : g' = k
    · subst e1; simp only [if_true] at h1 h2 h3 h4
      obtain ⟨c', hc'⟩ := h.cons g' k' h1 h2 (by simp [hkw, Status.active]) h4
      have n1 : k' ≠ g := by intro e; subst e; rw [hrun] at hc'; cases hc'
      have n2 : k' ≠ g' := by intro e; subst e; rw [hkw] at hc'; cases hc'; exact hkg rfl
      exact ⟨c', by simp [n1, n2, hc']⟩
    · rw [if_neg e1] at h1 h2 h3 h4
      by_cases e2 : g' = g
      · subst e2; simp only [if_true] at h3; rw [hna] at h3; cases h3
      · rw [if_neg e2] at h1 h2 h3 h4
        obtain ⟨c', hc'⟩ := h.cons g' k' h1 h2 h3 h4
        have n1 : k' ≠ g := by intro e; subst e; rw [hrun] at hc'; cases hc'
        have n2 : k' ≠ k := by intro e; subst e; rw [hkw] at hc'; cases hc'; exact e2 rfl
        exact ⟨c', by simp [n1, n2, hc']⟩
  · intro k' g' i hk'
    simp only [fg] at hk' ⊢
    by_cases e1 : k' = k
    · subst e1; simp at hk'
    · rw [if_neg e1] at hk'
      by_cases e2 : k' = g
      · subst e2; simp at hk'; exact absurd hk' (hnw _ _)
      · rw [if_neg e2] at hk'; exact hit k' g' i e1 hk'
  · intro o g' ho
    have := h.own o g' ho
    simp only [fg]; split
    · rename_i e; subst e; exact ⟨hkf, by simp, this.2.2⟩
    · split
      · exact ⟨hf, hnb, hfg⟩
      · exact this
  · intro i g' hi
    simp only [fg]
    rcases hitG i g' hi with e | e
    · subst e; rw [if_neg hgk]; simp [hnb, hfg]
    · have := h.itG i g' e
      split
      · rename_i e; subst e; exact ⟨by simp, this.2⟩
      · split
        · exact ⟨hnb, hfg⟩
        · exact this
  · intro c'; show (Spec.after (s.log ++ [e1] ++ [e2])).ph c' = _
    rw [Spec.after_snoc, Spec.after_snoc, nph]
    simp only [fg, upd_apply]
    by_cases e1 : c' = k
    · subst e1; rw [if_neg hkg, if_pos rfl, h.ph]; simp [absPh, hkw]
    · rw [if_neg e1]; split
      · rfl
      · exact h.ph c'
  · intro c'; show (Spec.after (s.log ++ [e1] ++ [e2])).cw c' = _
    rw [Spec.after_snoc, Spec.after_snoc, ncw]
    simp only [fg, upd_apply]; split
    · simp [absCw]
    · split
      · rename_i e; subst e; rw [h.cw]; rcases hst with x | x <;> simp [absCw, x, hrun]
      · exact h.cw c'
  · intro c'; show (Spec.after (s.log ++ [e1] ++ [e2])).susp c' = _
    rw [Spec.after_snoc, Spec.after_snoc, nsu]
    simp only [fg]; split
    · rename_i e; subst e; rw [h.susp]; simp [absSusp, hkw]
    · split
      · rename_i e; subst e; rw [h.susp]; rcases hst with x | x <;> simp [absSusp, x, hrun]
      · exact h.susp c'
  · show (Spec.after (s.log ++ [e1] ++ [e2])).it = _
    rw [Spec.after_snoc, Spec.after_snoc]; exact nit
  · show (Spec.after (s.log ++ [e1] ++ [e2])).obj = _
    rw [Spec.after_snoc, Spec.after_snoc, nob]; exact h.obj
  · intro g' h1 h2 h3
    show (Spec.after (s.log ++ [e1] ++ [e2])).lost g' = true ∨ _
    rw [Spec.after_snoc, Spec.after_snoc, nlo]
    simp only [fg] at h1 h2 h3
    by_cases e1 : g' = k
    · subst e1; simp only [if_true] at h1 h2 h3; exact h.lost g' (by simp [hkw]) h2 h3
    · rw [if_neg e1] at h1 h2 h3
      by_cases e2 : g' = g
      · subst e2; exact h.lost g' (by simp [hrun]) ((h.wf g').run hrun) hgn
      · rw [if_neg e2] at h1 h2 h3; exact h.lost g' h1 h2 h3
  · have a : Legal Spec.next Spec.ok {} (s.log ++ [e1]) := h.legal.snoc ok1
    refine a.snoc ?_
    show Spec.ok (Spec.after (s.log ++ [e1])) e2
    rw [Spec.after_snoc]; exact ok2

theorem good_pop {s : State σ V E} (h : Inv s) (hu : s.ub = none) {g : Nat} {rest : List Nat} (hcur : s.stack = g :: rest)
    (hgn : (s.fr g).isGen = true) (f : Frame σ V E) (e1 : Ev V E)
    (hf : f.freed = false) (hfg : f.isGen = true) (hfc : f.consumer = (s.fr g).consumer)
    (hcase : (∃ v, e1 = .yielded g v ∧ f.status = .atYield ∧ f.value = some v ∧ f.exc = none) ∨
      (e1 = .returned g ∧ f.status = .done ∧ f.value = none ∧ f.exc = none) ∨
      (∃ e, e1 = .raised g e ∧ f.status = .done ∧ f.value = none ∧ f.exc = some e))
    (hstd : f.st.isSome = true) :
    Good ((({ s with fr := upd s.fr g f } : State σ V E).emit e1).transfer g) := by
  have hrun : (s.fr g).status = .running := (h.cur g).2 (by simp [hcur])
  have hrf := (h.wf g).run hrun
  have hR := h.runnable (k := g) (by simp [hcur])
  obtain ⟨k, hk⟩ := Option.isSome_iff_exists.mp (((h.wf g).act (by simp [hrun, Status.active])).2 hgn)
  obtain ⟨c, hkw⟩ := h.cons g k hrf hgn (by simp [hrun, Status.active]) hk
  have hph : (Spec.after s.log).ph g = .active k := by rw [h.ph]; simp [absPh, hrun, hrf, hgn, hk]
  have hcw : (Spec.after s.log).cw k = some g := by rw [h.cw]; simp [absCw, hkw]
  have hkg : k ≠ g := by intro e; subst e; rw [hrun] at hkw; cases hkw
  have ok1 : (Spec.after s.log).ok e1 := by
    rcases hcase with ⟨v, e, _⟩ | ⟨e, _⟩ | ⟨x, e, _⟩ <;> subst e <;> exact ⟨hR, k, hph⟩
  have leg1 : Legal Spec.next Spec.ok {} (s.log ++ [e1]) := h.legal.snoc ok1
  have hst : f.status = .atYield ∨ f.status = .done := by
    rcases hcase with ⟨v, _, e, _⟩ | ⟨_, e, _⟩ | ⟨x, _, e, _⟩ <;> simp [e]
  by_cases hkf : (s.fr k).freed = true
  · -- the consumer was destroyed
    have : (((({ s with fr := upd s.fr g f } : State σ V E).emit e1).transfer g)) =
        (({ s with fr := upd s.fr g f } : State σ V E).emit e1).fail (.consumerDestroyed k) := by
      simp [State.transfer, State.emit, hfc, hk, upd_other _ _ hkg, hkf]
    rw [this]
    refine ⟨leg1, by simp [State.fail], ?_, by simp [State.fail]⟩
    intro c' hc'
    simp [State.fail] at hc'
    subst hc'
    refine AbandonedBusy.mono ((legal_abandoned s.log h.legal k).1 ?_ (.inr (by rw [hcw]; simp)))
    rw [h.ph]; simp [absPh, hkf]
  have hkf' : (s.fr k).freed = false := by simpa using hkf
  have hwf : WF f := by
    rcases hcase with ⟨v, _, e, e2, e3⟩ | ⟨_, e, e2, e3⟩ | ⟨x, _, e, e2, e3⟩ <;>
      (refine ⟨?_, ?_, ?_, ?_, ?_, ?_, ?_⟩ <;> simp_all [Status.active])
  have hwf' : WF { f with exc := none } := by
    rcases hcase with ⟨v, _, e, e2, e3⟩ | ⟨_, e, e2, e3⟩ | ⟨x, _, e, e2, e3⟩ <;>
      (refine ⟨?_, ?_, ?_, ?_, ?_, ?_, ?_⟩ <;> simp_all [Status.active])
  have others : ∀ k' g' i, k' ≠ k → (s.fr k').status = .waitGen g' (.inc i) → s.it i = some (some g') ∧ g' ≠ g := by
    intro k' g' i hne e
    refine ⟨h.inc _ _ _ e, ?_⟩
    intro e'; subst e'
    rcases h.wait _ _ _ e with x | x
    · rw [hrf] at x; cases x
    · rw [hk] at x; exact hne (Option.some.inj x.2.2).symm
  have fk : (upd s.fr g f) k = s.fr k := upd_other _ _ hkg
  have hgk : g ≠ k := fun e => hkg e.symm
  have T : ((({ s with fr := upd s.fr g f } : State σ V E).emit e1).transfer g) =
      ({ s with fr := upd (upd s.fr g f) k { s.fr k with status := .running }, stack := k :: rest, log := s.log ++ [e1] } : State σ V E).awaitResume g k c := by
    simp [State.transfer, State.emit, hfc, hk, fk, hkf', hkw, hcur]
  rw [T]
  have hub : ∀ s' : State σ V E, s'.ub = s.ub → Inv s' → Good s' := fun s' e hi => hi.good' (by rw [e]; exact hu)
  cases c with
  | inc i =>
    have hi : s.it i = some (some g) := h.inc _ _ _ hkw
    have hil := h.itBorn hi (by simp)
    have itEnd : ∀ k' g' j, k' ≠ k → (s.fr k').status = .waitGen g' (.inc j) → upd s.it i (some none) j = some (some g') := by
      intro k' g' j hne e
      obtain ⟨a, b⟩ := others k' g' j hne e
      rw [upd_other _ _ (by intro e; subst e; rw [hi] at a; cases a; exact b rfl)]; exact a
    have itB : ∀ x j, s.ni ≤ j → upd s.it i x j = none := by
      intro x j hj; rw [upd_other _ _ (by omega)]; exact h.itB j hj
    have itS : ∀ j, j < s.ni → upd s.it i (some none) j ≠ none := by
      intro j hj; by_cases e : j = i
      · subst e; simp
      · rw [upd_other _ _ e]; exact h.itS j hj
    have itG : ∀ j g', upd s.it i (some none) j = some (some g') → g' = g ∨ s.it j = some (some g') := by
      intro j g'; by_cases e : j = i
      · subst e; simp
      · rw [upd_other _ _ e]; exact fun a => .inr a
    have hself : upd s.it i (some (some g)) = s.it := by rw [← hi]; exact upd_self _ _
    rcases hcase with ⟨v, e, h1, h2, h3⟩ | ⟨e, h1, h2, h3⟩ | ⟨x, e, h1, h2, h3⟩ <;> subst e
    · have r := pop_inv h hcur hgn hk hkf' hkw f (.yielded g v) (.got g k i) (.iter i) s.it s.ni hf hst hwf hfg ok1
        ⟨⟨v, by simp [Spec.next, hph]⟩, by simpa [Spec.next, hph] using hcw, by right; simp [Spec.next, h.it, hi]⟩
        (by simp only [Spec.next, hph, upd_same]; funext g'; simp only [upd_apply, absPh, hf, h1, h2]; split <;> simp_all)
        (by simp [Spec.next]) rfl (by simp [Spec.next, h.it, hself]) rfl rfl
        (fun k' g' j hne e => (others k' g' j hne e).1) h.itB h.itS (fun j g' a => .inr a)
      refine hub _ ?_ ?_
      · simp [State.awaitResume, State.emit, State.reply, upd_other _ _ hgk, h2]
      · refine (congrArg Inv ?_).mpr r
        simp only [State.awaitResume, State.emit, State.reply, upd_other _ _ hgk, upd_same, h2]
        congr 1; funext c'; simp only [upd_apply]; grind
    · have r := pop_inv h hcur hgn hk hkf' hkw f (.returned g) (.gotEnd g k i) (.iter i) (upd s.it i (some none)) s.ni hf hst hwf hfg ok1
        ⟨by simp [Spec.next, hph], by simpa [Spec.next, hph] using hcw, by right; simp [Spec.next, h.it, hi]⟩
        (by simp only [Spec.next, hph]; funext g'; simp only [upd_apply, absPh, hf, h1, h2]; split <;> simp_all)
        (by simp [Spec.next]) rfl (by simp [Spec.next, h.it]) rfl rfl
        itEnd (itB _) itS itG
      refine hub _ ?_ ?_
      · simp [State.awaitResume, State.emit, State.reply, upd_other _ _ hgk, h2, h3]
      · refine (congrArg Inv ?_).mpr r
        simp only [State.awaitResume, State.emit, State.reply, upd_other _ _ hgk, upd_same, h2, h3]
        congr 1; funext c'; simp only [upd_apply]; grind
    · have r := pop_inv h hcur hgn hk hkf' hkw { f with exc := none } (.raised g x) (.gotExc g k (.inc i) x) (.threw x) (upd s.it i (some none)) s.ni hf hst hwf' hfg ok1
        ⟨by simp [Spec.next, hph], by simpa [Spec.next, hph] using hcw, by intro j e; cases e; simp [Spec.next, h.it, hi]⟩
        (by simp only [Spec.next, hph]; funext g'; simp only [upd_apply, absPh, hf, h1, h2]; split <;> simp_all)
        (by simp [Spec.next]) rfl (by simp [Spec.next, h.it]) rfl rfl
        itEnd (itB _) itS itG
      refine hub _ ?_ ?_
      · simp [State.awaitResume, State.emit, State.reply, upd_other _ _ hgk, h2, h3]
      · refine (congrArg Inv ?_).mpr r
        simp only [State.awaitResume, State.emit, State.reply, upd_other _ _ hgk, upd_same, h2, h3]
        congr 1; funext c'; simp only [upd_apply]; grind
  | begin =>
    have hni : s.it s.ni = none := h.itB _ (Nat.le_refl _)
    have itR : ∀ x k' g' j, k' ≠ k → (s.fr k').status = .waitGen g' (.inc j) → upd s.it s.ni x j = some (some g') := by
      intro x k' g' j hne e
      obtain ⟨a, b⟩ := others k' g' j hne e
      rw [upd_other _ _ (by intro e; subst e; rw [hni] at a; cases a)]; exact a
    have itB : ∀ x j, s.ni + 1 ≤ j → upd s.it s.ni x j = none := by
      intro x j hj; rw [upd_other _ _ (by omega)]; exact h.itB j (by omega)
    have itS : ∀ x : Option Nat, ∀ j, j < s.ni + 1 → upd s.it s.ni (some x) j ≠ none := by
      intro x j hj; by_cases e : j = s.ni
      · subst e; simp
      · rw [upd_other _ _ e]; exact h.itS j (by omega)
    have itG : ∀ x, (x = none ∨ x = some g) → ∀ j g', upd s.it s.ni (some x) j = some (some g') →
        g' = g ∨ s.it j = some (some g') := by
      intro x hx j g'; by_cases e : j = s.ni
      · subst e; rcases hx with rfl | rfl
        · simp
        · simp; exact fun a => .inl a.symm
      · rw [upd_other _ _ e]; exact fun a => .inr a
    rcases hcase with ⟨v, e, h1, h2, h3⟩ | ⟨e, h1, h2, h3⟩ | ⟨x, e, h1, h2, h3⟩ <;> subst e
    · have r := pop_inv h hcur hgn hk hkf' hkw f (.yielded g v) (.got g k s.ni) (.iter s.ni) (upd s.it s.ni (some (some g))) (s.ni + 1) hf hst hwf hfg ok1
        ⟨⟨v, by simp [Spec.next, hph]⟩, by simpa [Spec.next, hph] using hcw, by left; simp [Spec.next, h.it, hni]⟩
        (by simp only [Spec.next, hph, upd_same]; funext g'; simp only [upd_apply, absPh, hf, h1, h2]; split <;> simp_all)
        (by simp [Spec.next]) rfl (by simp [Spec.next, h.it]) rfl rfl
        (itR _) (itB _) (itS _) (itG _ (.inr rfl))
      refine hub _ ?_ ?_
      · simp [State.awaitResume, State.emit, State.reply, upd_other _ _ hgk, h2]
      · refine (congrArg Inv ?_).mpr r
        simp only [State.awaitResume, State.emit, State.reply, upd_other _ _ hgk, upd_same, h2]
        congr 1; funext c'; simp only [upd_apply]; grind
    · have r := pop_inv h hcur hgn hk hkf' hkw f (.returned g) (.gotEnd g k s.ni) (.iter s.ni) (upd s.it s.ni (some none)) (s.ni + 1) hf hst hwf hfg ok1
        ⟨by simp [Spec.next, hph], by simpa [Spec.next, hph] using hcw, by left; simp [Spec.next, h.it, hni]⟩
        (by simp only [Spec.next, hph]; funext g'; simp only [upd_apply, absPh, hf, h1, h2]; split <;> simp_all)
        (by simp [Spec.next]) rfl (by simp [Spec.next, h.it]) rfl rfl
        (itR _) (itB _) (itS _) (itG _ (.inl rfl))
      refine hub _ ?_ ?_
      · simp [State.awaitResume, State.emit, State.reply, upd_other _ _ hgk, h2, h3]
      · refine (congrArg Inv ?_).mpr r
        simp only [State.awaitResume, State.emit, State.reply, upd_other _ _ hgk, upd_same, h2, h3]
        congr 1; funext c'; simp only [upd_apply]; grind
    · have r := pop_inv h hcur hgn hk hkf' hkw { f with exc := none } (.raised g x) (.gotExc g k .begin x) (.threw x) s.it s.ni hf hst hwf' hfg ok1
        ⟨by simp [Spec.next, hph], by simpa [Spec.next, hph] using hcw, by simp⟩
        (by simp only [Spec.next, hph]; funext g'; simp only [upd_apply, absPh, hf, h1, h2]; split <;> simp_all)
        (by simp [Spec.next]) rfl (by simp [Spec.next, h.it]) rfl rfl
        (fun k' g' j hne e => (others k' g' j hne e).1) h.itB h.itS (fun j g' a => .inr a)
      refine hub _ ?_ ?_
      · simp [State.awaitResume, State.emit, State.reply, upd_other _ _ hgk, h2, h3]
      · refine (congrArg Inv ?_).mpr r
        simp only [State.awaitResume, State.emit, State.reply, upd_other _ _ hgk, upd_same, h2, h3]
        congr 1; funext c'; simp only [upd_apply]; grind

end QCoro.AGen
