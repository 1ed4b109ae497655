import Verif.Generator.Step
set_option linter.unusedSimpArgs false
namespace QCoro.Gen
variable {σ V E : Type}

/-- Invariant of all reachable states, also those with undefined behaviour. -/
structure Good (s : State σ V E) : Prop where
  legal : Legal Spec.next Spec.ok {} s.log
  ub : s.ub ≠ some .doubleDestroy ∧ s.ub ≠ some .ownerDangling ∧ s.ub ≠ some .stuck
  inv : s.ub = none → Inv s

theorem Inv.good {s : State σ V E} (h : Inv s) : Good s := ⟨h.legal, h.ub, fun _ => h⟩

/-- The coroutine on top of the stack suspends or finishes (event `e1`), control returns to begin()/++ which reports
`e2`. -/
theorem pop_inv {s : State σ V E} (h : Inv s) {g : Nat} {c : Call} {rest : List (Nat × Call)}
    (hs : s.stack = (g, c) :: rest) (f : Frame σ V E) (e1 e2 : Ev V E)
    (it' : Nat → Option (Option Nat)) (ni' : Nat)
    (hf : f.freed = false) (hst : f.status = .yielded ∨ f.status = .done) (hwf : WF f)
    (ok1 : (Spec.after s.log).ok e1) (ok2 : ((Spec.after s.log).next e1).ok e2)
    (n1 : ∃ p, (Spec.after s.log).next e1 = { Spec.after s.log with ph := upd (Spec.after s.log).ph g p })
    (n2 : (((Spec.after s.log).next e1).next e2).ph = upd (Spec.after s.log).ph g (absPh f) ∧
          (((Spec.after s.log).next e1).next e2).it = it' ∧
          (((Spec.after s.log).next e1).next e2).obj = (Spec.after s.log).obj ∧
          (((Spec.after s.log).next e1).next e2).lost = (Spec.after s.log).lost)
    (hit : ∀ g' i, (g', Call.inc i) ∈ rest → it' i = some (some g'))
    (hitB : ∀ i, ni' ≤ i → it' i = none) (hitS : ∀ i, i < ni' → it' i ≠ none)
    (hitG : ∀ i g', it' i = some (some g') → g' = g ∨ s.it i = some (some g')) :
    Inv { s with fr := upd s.fr g f, stack := rest, it := it', ni := ni', log := s.log ++ [e1] ++ [e2] } := by
  have hrun : (s.fr g).status = .running := (h.run g).2 (by simp [hs])
  have hnb : f.status ≠ .unborn := by rcases hst with e | e <;> simp [e]
  have hnd := h.nodup
  rw [hs] at hnd
  simp only [List.map_cons, List.nodup_cons] at hnd
  refine ⟨?_, ?_, ?_, hnd.2, hit, ?_, h.uniq, h.objB, hitB, hitS, ?_, ?_, ?_, ?_, ?_, ?_, h.ub⟩
  · intro g'; by_cases hg : g' = g
    · subst hg; simpa using hwf
    · simp only [upd_other _ _ hg]; exact h.wf g'
  · intro g'; by_cases hg : g' = g
    · subst hg; simp only [upd_same]
      have := (h.born g').2 (by simp [hrun]); simp [hnb, this]
    · simp only [upd_other _ _ hg]; exact h.born g'
  · intro g'; by_cases hg : g' = g
    · subst hg; simp only [upd_same]
      constructor
      · intro e; rcases hst with e' | e' <;> simp [e'] at e
      · intro e; exact absurd e hnd.1
    · simp only [upd_other _ _ hg]
      rw [h.run g', hs]; simp [hg]
  · intro o g' ho
    by_cases hg : g' = g
    · subst hg; simp [hf, hnb]
    · simp only [upd_other _ _ hg]; exact h.own o g' ho
  · intro i g' hi
    by_cases hg : g' = g
    · subst hg; simpa using hnb
    · simp only [upd_other _ _ hg]
      rcases hitG i g' hi with e | e
      · exact absurd e hg
      · exact h.itG i g' e
  · show (Spec.after (s.log ++ [e1] ++ [e2])).ph = _
    rw [Spec.after_snoc, Spec.after_snoc, n2.1]
    funext g'; by_cases hg : g' = g
    · subst hg; simp
    · simp only [upd_other _ _ hg]; rw [h.ph]
  · show (Spec.after (s.log ++ [e1] ++ [e2])).it = _
    rw [Spec.after_snoc, Spec.after_snoc]; exact n2.2.1
  · show (Spec.after (s.log ++ [e1] ++ [e2])).obj = _
    rw [Spec.after_snoc, Spec.after_snoc, n2.2.2.1]; exact h.obj
  · intro g' h1 h2
    show (Spec.after (s.log ++ [e1] ++ [e2])).lost g' = true ∨ _
    rw [Spec.after_snoc, Spec.after_snoc, n2.2.2.2]
    by_cases hg : g' = g
    · subst hg; exact h.lost g' (by simp [hrun]) ((h.wf g').run hrun).2
    · simp only [upd_other _ _ hg] at h1 h2; exact h.lost g' h1 h2
  · have a : Legal Spec.next Spec.ok {} (s.log ++ [e1]) := h.legal.snoc ok1
    refine a.snoc ?_
    show Spec.ok (Spec.after (s.log ++ [e1])) e2
    rw [Spec.after_snoc]; exact ok2

theorem State.reply_ub (s : State σ V E) (r : Resp V E) : (s.reply r).ub = s.ub := by
  unfold State.reply; split <;> rfl

theorem good_pop {s : State σ V E} (h : Inv s) {g : Nat} {c : Call} {rest : List (Nat × Call)}
    (hs : s.stack = (g, c) :: rest) (f : Frame σ V E) (e1 : Ev V E)
    (hf : f.freed = false)
    (hcase : (∃ v, e1 = .yielded g v ∧ f.status = .yielded ∧ f.value = some v ∧ f.exc = none) ∨
      (e1 = .returned g ∧ f.status = .done ∧ f.value = none ∧ f.exc = none) ∨
      (∃ e, e1 = .raised g e ∧ f.status = .done ∧ f.value = none ∧ f.exc = some e))
    (hstd : f.st.isSome = true) :
    Good ((({ s with fr := upd s.fr g f, stack := rest } : State σ V E).emit e1).after g c) := by
  have hrun : (s.fr g).status = .running := (h.run g).2 (by simp [hs])
  have hrf := ((h.wf g).run hrun).2
  have hph : (Spec.after s.log).ph g = .running := by rw [h.ph]; simp [absPh, hrun, hrf]
  have hst : f.status = .yielded ∨ f.status = .done := by
    rcases hcase with ⟨v, _, e, _⟩ | ⟨_, e, _⟩ | ⟨x, _, e, _⟩ <;> simp [e]
  have hwf : WF f := by
    rcases hcase with ⟨v, _, e, e2, e3⟩ | ⟨_, e, e2, e3⟩ | ⟨x, _, e, e2, e3⟩ <;>
      constructor <;> simp_all
  have ok1 : (Spec.after s.log).ok e1 := by
    rcases hcase with ⟨v, e, _⟩ | ⟨e, _⟩ | ⟨x, e, _⟩ <;> subst e <;> exact hph
  have n1 : ∃ p, (Spec.after s.log).next e1 = { Spec.after s.log with ph := upd (Spec.after s.log).ph g p } := by
    rcases hcase with ⟨v, e, _⟩ | ⟨e, _⟩ | ⟨x, e, _⟩ <;> subst e <;> exact ⟨_, rfl⟩
  have leg1 : Legal Spec.next Spec.ok {} (s.log ++ [e1]) := h.legal.snoc ok1
  have hnd := h.nodup
  rw [hs] at hnd
  simp only [List.map_cons, List.nodup_cons] at hnd
  have failGood : ∀ (s' : State σ V E) u, s'.log = s.log ++ [e1] →
      (u ≠ Ub.doubleDestroy ∧ u ≠ Ub.ownerDangling ∧ u ≠ Ub.stuck) → Good (s'.fail u) := by
    intro s' u hl hne
    refine ⟨by show Legal _ _ _ s'.log; rw [hl]; exact leg1, by simpa [State.fail] using hne, by simp [State.fail]⟩
  have restInc : ∀ g' i, (g', Call.inc i) ∈ rest → s.it i = some (some g') ∧ g' ≠ g := by
    intro g' i hm
    refine ⟨h.inc g' i (by rw [hs]; exact List.mem_cons_of_mem _ hm), ?_⟩
    intro e; subst e; exact hnd.1 (List.mem_map.mpr ⟨_, hm, rfl⟩)
  cases c with
  | inc i =>
    have hi : s.it i = some (some g) := h.inc g i (by simp [hs])
    have hil := h.itBorn hi (by simp)
    have itEnd : ∀ g' j, (g', Call.inc j) ∈ rest → upd s.it i (some none) j = some (some g') := by
      intro g' j hm
      obtain ⟨a, b⟩ := restInc g' j hm
      rw [upd_other _ _ (by intro e; subst e; rw [hi] at a; cases a; exact b rfl)]; exact a
    have itB : ∀ x j, s.ni ≤ j → upd s.it i x j = none := by
      intro x j hj; rw [upd_other _ _ (by omega)]; exact h.itB j hj
    have itS : ∀ j, j < s.ni → upd s.it i (some none) j ≠ none := by
      intro j hj; by_cases e : j = i
      · subst e; simp
      · rw [upd_other _ _ e]; exact h.itS j hj
    have itG : ∀ j g', upd s.it i (some none) j = some (some g') → g' = g ∨ s.it j = some (some g') := by
      intro j g'; by_cases e : j = i
      · subst e; simp
      · rw [upd_other _ _ e]; exact fun a => .inr a
    have hself : upd s.it i (some (some g)) = s.it := by rw [← hi]; exact upd_self _ _
    rcases hcase with ⟨v, e, h1, h2, h3⟩ | ⟨e, h1, h2, h3⟩ | ⟨x, e, h1, h2, h3⟩ <;> subst e
    · have r := pop_inv h hs f (.yielded g v) (.got g i) s.it s.ni hf hst hwf ok1
        ⟨⟨v, by simp [Spec.next]⟩, by right; simp [Spec.next, h.it, hi]⟩ n1
        ⟨by simp only [Spec.next, upd_same]; funext g'; simp only [upd_apply, absPh, hf, h1, h2]; split <;> simp_all,
         by simp [Spec.next, h.it, hself], rfl, rfl⟩
        (fun g' j hm => (restInc g' j hm).1) h.itB h.itS (fun j g' a => .inr a)
      have := (r.reply (.iter i)).good
      simpa [State.after, State.afterInc, State.emit, hi, hf, h2] using this
    · have r := pop_inv h hs f (.returned g) (.gotEnd g i) (upd s.it i (some none)) s.ni hf hst hwf ok1
        ⟨by simp [Spec.next], by right; simp [Spec.next, h.it, hi]⟩ n1
        ⟨by simp only [Spec.next]; funext g'; simp only [upd_apply, absPh, hf, h1, h2]; split <;> simp_all,
         by simp [Spec.next, h.it], rfl, rfl⟩ itEnd (itB _) itS itG
      have := (r.reply (.iter i)).good
      simpa [State.after, State.afterInc, State.emit, hi, hf, h2, h3] using this
    · have r := pop_inv h hs f (.raised g x) (.gotExc g (.inc i) x) (upd s.it i (some none)) s.ni hf hst hwf ok1
        ⟨by simp [Spec.next], by simp [Spec.next, h.it, hi]⟩ n1
        ⟨by simp only [Spec.next]; funext g'; simp only [upd_apply, absPh, hf, h1, h2]; split <;> simp_all,
         by simp [Spec.next, h.it], rfl, rfl⟩ itEnd (itB _) itS itG
      have := (r.reply (.threw x)).good
      simpa [State.after, State.afterInc, State.emit, hi, hf, h2, h3] using this
  | begin o =>
    have hni : s.it s.ni = none := h.itB _ (Nat.le_refl _)
    have itR : ∀ x g' j, (g', Call.inc j) ∈ rest → upd s.it s.ni x j = some (some g') := by
      intro x g' j hm
      obtain ⟨a, b⟩ := restInc g' j hm
      rw [upd_other _ _ (by intro e; subst e; rw [hni] at a; cases a)]; exact a
    have itB : ∀ x j, s.ni + 1 ≤ j → upd s.it s.ni x j = none := by
      intro x j hj; rw [upd_other _ _ (by omega)]; exact h.itB j (by omega)
    have itS : ∀ x : Option Nat, ∀ j, j < s.ni + 1 → upd s.it s.ni (some x) j ≠ none := by
      intro x j hj; by_cases e : j = s.ni
      · subst e; simp
      · rw [upd_other _ _ e]; exact h.itS j (by omega)
    have itG : ∀ x, (x = none ∨ x = some g) → ∀ j g', upd s.it s.ni (some x) j = some (some g') →
        g' = g ∨ s.it j = some (some g') := by
      intro x hx j g'; by_cases e : j = s.ni
      · subst e; rcases hx with rfl | rfl
        · simp
        · simp; exact fun a => .inl a.symm
      · rw [upd_other _ _ e]; exact fun a => .inr a
    have hb : ∀ s' : State σ V E, s'.obj = s.obj → s'.log = s.log ++ [e1] →
        (∀ h', s'.obj o = .live (some h') → h' = g → Good (s'.afterBegin g o)) → Good (s'.afterBegin g o) := by
      intro s' ho hl hk
      cases hob : s'.obj o with
      | none => unfold State.afterBegin; rw [hob]; exact failGood _ _ hl (by decide)
      | dead => unfold State.afterBegin; rw [hob]; exact failGood _ _ hl (by decide)
      | live x =>
        cases x with
        | none => unfold State.afterBegin; rw [hob]; exact failGood _ _ hl (by decide)
        | some h' =>
          by_cases e : h' = g
          · exact hk h' hob e
          · unfold State.afterBegin; rw [hob]; dsimp only; rw [if_pos e]; exact failGood _ _ hl (by decide)
    refine hb _ rfl rfl ?_
    rintro h' ho rfl
    have ho' : s.obj o = .live (some h') := ho
    rcases hcase with ⟨v, e, h1, h2, h3⟩ | ⟨e, h1, h2, h3⟩ | ⟨x, e, h1, h2, h3⟩ <;> subst e
    · have r := pop_inv h hs f (.yielded h' v) (.got h' s.ni) (upd s.it s.ni (some (some h'))) (s.ni + 1) hf hst hwf ok1
        ⟨⟨v, by simp [Spec.next]⟩, by left; simp [Spec.next, h.it, hni]⟩ n1
        ⟨by simp only [Spec.next, upd_same]; funext g'; simp only [upd_apply, absPh, hf, h1, h2]; split <;> simp_all,
         by simp [Spec.next, h.it], rfl, rfl⟩
        (itR _) (itB _) (itS _) (itG _ (.inr rfl))
      have := (r.reply (.iter s.ni)).good
      simpa [State.afterBegin, State.emit, ho', hf, h2] using this
    · have r := pop_inv h hs f (.returned h') (.gotEnd h' s.ni) (upd s.it s.ni (some none)) (s.ni + 1) hf hst hwf ok1
        ⟨by simp [Spec.next], by left; simp [Spec.next, h.it, hni]⟩ n1
        ⟨by simp only [Spec.next]; funext g'; simp only [upd_apply, absPh, hf, h1, h2]; split <;> simp_all,
         by simp [Spec.next, h.it], rfl, rfl⟩ (itR _) (itB _) (itS _) (itG _ (.inl rfl))
      have := (r.reply (.iter s.ni)).good
      simpa [State.afterBegin, State.emit, ho', hf, h2, h3] using this
    · have r := pop_inv h hs f (.raised h' x) (.gotExc h' (.begin o) x) s.it s.ni hf hst hwf ok1
        ⟨by simp [Spec.next], by simp⟩ n1
        ⟨by simp only [Spec.next]; funext g'; simp only [upd_apply, absPh, hf, h1, h2]; split <;> simp_all,
         by simp [Spec.next, h.it], rfl, rfl⟩ (fun g' j hm => (restInc g' j hm).1) h.itB h.itS (fun j g' a => .inr a)
      have := (r.reply (.threw x)).good
      simpa [State.afterBegin, State.emit, ho', hf, h2, h3] using this

/-- Updating only the body state and input of a running frame. -/
theorem Inv.bodySt {s : State σ V E} (h : Inv s) {g : Nat} (hrun : (s.fr g).status = .running) (st : σ) (r : Resp V E) :
    Inv ({ s with fr := upd s.fr g { s.fr g with st := some st, inp := r } } : State σ V E) := by
  have hp : ∀ g', ((upd s.fr g { s.fr g with st := some st, inp := r }) g').status = (s.fr g').status ∧
      ((upd s.fr g { s.fr g with st := some st, inp := r }) g').freed = (s.fr g').freed ∧
      ((upd s.fr g { s.fr g with st := some st, inp := r }) g').value = (s.fr g').value ∧
      ((upd s.fr g { s.fr g with st := some st, inp := r }) g').exc = (s.fr g').exc := by
    intro g'; by_cases hg : g' = g
    · subst hg; simp
    · simp [upd_other, hg]
  have a : (fun g' => absPh ((upd s.fr g { s.fr g with st := some st, inp := r }) g')) = fun g' => absPh (s.fr g') := by
    funext g'; obtain ⟨h1, h2, h3, _⟩ := hp g'; simp [absPh, h1, h2, h3]
  refine ⟨?_, ?_, ?_, h.nodup, h.inc, ?_, h.uniq, h.objB, h.itB, h.itS, ?_, ?_, h.it, h.obj, ?_, h.legal, h.ub⟩
  · intro g'; by_cases hg : g' = g
    · subst hg
      have w := h.wf g'
      simp only [upd_same]
      exact ⟨by simp, by simp [hrun], by simp [hrun], w.run, by simp [hrun]⟩
    · simp only [upd_other _ _ hg]; exact h.wf g'
  · intro g'; rw [(hp g').1]; exact h.born g'
  · intro g'; rw [(hp g').1]; exact h.run g'
  · intro o g' ho; rw [(hp g').1, (hp g').2.1]; exact h.own o g' ho
  · intro i g' hi; rw [(hp g').1]; exact h.itG i g' hi
  · show (Spec.after s.log).ph = _; rw [a]; exact h.ph
  · intro g'; rw [(hp g').1, (hp g').2.1]; exact h.lost g'

theorem good_step (P : Prog σ V E) {s : State σ V E} (h : Good s) (op : Op σ V) : Good (step P s op) := by
  unfold step
  by_cases hu : s.ub.isSome = true
  · rw [if_pos hu]; exact h
  rw [if_neg hu]
  have hu' : s.ub = none := by simpa using hu
  have hi := h.inv hu'
  split
  · exact (inv_api hi _).good
  · rename_i g c rest hs
    have hrun : (s.fr g).status = .running := (hi.run g).2 (by simp [hs])
    split
    · rename_i st hst
      dsimp only
      have h1 := hi.bodySt hrun (P.next st (s.fr g).inp).1 .unit
      generalize hs1 : ({ s with fr := upd s.fr g { s.fr g with st := some (P.next st (s.fr g).inp).1, inp := .unit } } : State σ V E) = s1 at h1
      have hrun1 : (s1.fr g).status = .running := by subst hs1; simpa using hrun
      have hst1 : (s1.fr g).st.isSome = true := by subst hs1; simp
      have hstk1 : s1.stack = (g, c) :: rest := by subst hs1; exact hs
      have h2 : Inv (s1.emit (.ran g)) := by
        refine h1.emitQuiet _ ?_ rfl
        show (Spec.after s1.log).ph g = _
        rw [h1.ph]; simp [absPh, hrun1, ((h1.wf g).run hrun1).2]
      have hx := (h1.wf g).run hrun1
      generalize (P.next st (s.fr g).inp).2 = a
      cases a with
      | api a => exact (inv_api h2 a).good
      | yield v =>
        exact good_pop h2 hstk1 _ _ hx.2 (.inl ⟨v, rfl, rfl, rfl, hx.1⟩) hst1
      | ret =>
        exact good_pop h2 hstk1 _ _ hx.2 (.inr (.inl ⟨rfl, rfl, rfl, hx.1⟩)) hst1
      | throw e =>
        exact good_pop h2 hstk1 _ _ hx.2 (.inr (.inr ⟨e, rfl, rfl, rfl, rfl⟩)) hst1
    · rename_i hn
      have := (hi.wf g).st (by simp [hrun]); simp [hn] at this
  · exact h

theorem good_exec (P : Prog σ V E) (ops : List (Op σ V)) : Good (exec P ops) := by
  induction ops using snocInd with
  | nil => exact inv_init.good
  | snoc l a ih => rw [exec_snoc]; exact good_step P ih a

end QCoro.Gen
