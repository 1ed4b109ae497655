import Verif.Generator.Spec
/- Invariant and refinement proof for the generator machine. -/
namespace QCoro.Gen
variable {σ V E : Type}

/-- Phase of a frame between steps. -/
def absPh (f : Frame σ V E) : Ph V E :=
  if f.freed then .gone else
  match f.status with
  | .unborn => .unborn
  | .initial => .fresh
  | .running => .running
  | .done => .over
  | .yielded => match f.value with | some v => .at v | none => .unborn

structure WF (f : Frame σ V E) : Prop where
  st : f.status ≠ .unborn → f.st.isSome = true
  ini : f.status = .initial → f.value = none ∧ f.exc = none
  yld : f.status = .yielded → f.value.isSome = true ∧ f.exc = none
  run : f.status = .running → f.exc = none ∧ f.freed = false
  unb : f.status = .unborn → f.freed = false

structure Inv (s : State σ V E) : Prop where
  wf : ∀ g, WF (s.fr g)
  born : ∀ g, g < s.nf ↔ (s.fr g).status ≠ .unborn
  run : ∀ g, (s.fr g).status = .running ↔ g ∈ s.stack.map (·.1)
  nodup : (s.stack.map (·.1)).Nodup
  inc : ∀ g i, (g, Call.inc i) ∈ s.stack → s.it i = some (some g)
  own : ∀ o g, s.obj o = .live (some g) → (s.fr g).freed = false ∧ (s.fr g).status ≠ .unborn
  uniq : ∀ o o' g, s.obj o = .live (some g) → s.obj o' = .live (some g) → o = o'
  objB : ∀ o, s.no ≤ o → s.obj o = .none
  itB : ∀ i, s.ni ≤ i → s.it i = none
  itS : ∀ i, i < s.ni → s.it i ≠ none
  itG : ∀ i g, s.it i = some (some g) → (s.fr g).status ≠ .unborn
  ph : (Spec.after s.log).ph = fun g => absPh (s.fr g)
  it : (Spec.after s.log).it = s.it
  obj : (Spec.after s.log).obj = s.obj
  lost : ∀ g, (s.fr g).status ≠ .unborn → (s.fr g).freed = false →
    (Spec.after s.log).lost g = true ∨ ∃ o, s.obj o = .live (some g)
  legal : Legal Spec.next Spec.ok {} s.log
  ub : s.ub ≠ some .doubleDestroy ∧ s.ub ≠ some .ownerDangling ∧ s.ub ≠ some .stuck

theorem Spec.after_snoc (l : List (Ev V E)) (e : Ev V E) : Spec.after (l ++ [e]) = (Spec.after l).next e := by
  simp [Spec.after]

theorem inv_init : Inv ({} : State σ V E) := by
  refine ⟨fun g => ⟨by simp, by simp, by simp, by simp, by simp⟩, by simp, by simp, by simp, by simp, by simp, by simp,
    by simp, by simp, by simp, by simp, by simp [Spec.after, absPh], by simp [Spec.after], by simp [Spec.after], by simp,
    Legal.nil, by simp⟩

theorem Inv.fail {s : State σ V E} (h : Inv s) {u : Ub} (hu : u ≠ .doubleDestroy ∧ u ≠ .ownerDangling ∧ u ≠ .stuck) :
    Inv (s.fail u) := by
  exact ⟨h.wf, h.born, h.run, h.nodup, h.inc, h.own, h.uniq, h.objB, h.itB, h.itS, h.itG, h.ph, h.it, h.obj, h.lost, h.legal,
    by simpa [State.fail] using hu⟩

theorem Inv.reply {s : State σ V E} (h : Inv s) (r : Resp V E) : Inv (s.reply r) := by
  unfold State.reply
  split
  · exact h
  · rename_i g c rest hs
    obtain ⟨wf, born, run, nodup, inc, own, uniq, objB, itB, itS, itG, ph, it, obj, lost, legal, ub⟩ := h
    have e : ∀ g', ((upd s.fr g { s.fr g with inp := r }) g').status = (s.fr g').status ∧
        ((upd s.fr g { s.fr g with inp := r }) g').freed = (s.fr g').freed ∧
        ((upd s.fr g { s.fr g with inp := r }) g').value = (s.fr g').value ∧
        ((upd s.fr g { s.fr g with inp := r }) g').exc = (s.fr g').exc ∧
        ((upd s.fr g { s.fr g with inp := r }) g').st = (s.fr g').st := by
      intro g'; by_cases hg : g' = g
      · subst hg; simp
      · simp [upd_other, hg]
    have a : (fun g' => absPh ((upd s.fr g { s.fr g with inp := r }) g')) = fun g' => absPh (s.fr g') := by
      funext g'; obtain ⟨h1, h2, h3, _⟩ := e g'; simp [absPh, h1, h2, h3]
    refine ⟨?_, ?_, ?_, ?_, ?_, ?_, ?_, objB, itB, itS, ?_, ?_, it, obj, ?_, legal, ub⟩
    · intro g'; obtain ⟨h1, h2, h3, h4, h5⟩ := e g'; obtain ⟨a1, a2, a3, a4, a5⟩ := wf g'
      exact ⟨by rw [h1, h5]; exact a1, by rw [h1, h3, h4]; exact a2, by rw [h1, h3, h4]; exact a3,
        by rw [h1, h4, h2]; exact a4, by rw [h1, h2]; exact a5⟩
    · intro g'; show g' < s.nf ↔ _; rw [(e g').1]; exact born g'
    · intro g'; show (upd s.fr g _ g').status = _ ↔ _; rw [(e g').1]; exact run g'
    · exact nodup
    · exact inc
    · intro o g' ho; rw [(e g').1, (e g').2.1]; exact own o g' ho
    · exact uniq
    · intro i g' hi; rw [(e g').1]; exact itG i g' hi
    · show (Spec.after s.log).ph = _; rw [a]; exact ph
    · intro g'; show (upd s.fr g _ g').status ≠ _ → (upd s.fr g _ g').freed = _ → _
      rw [(e g').1, (e g').2.1]; exact lost g'


theorem inv_resume {s : State σ V E} (h : Inv s) {g : Nat} {c : Call} {bad : Ub}
    (hb : bad = .iterDangling ∨ (s.fr g).freed = false)
    (hbn : (s.fr g).status ≠ .unborn)
    (hc : match c with | .begin o => s.obj o = .live (some g) | .inc i => s.it i = some (some g)) :
    Inv (s.resume g c bad) := by
  unfold State.resume
  dsimp only
  by_cases hf : (s.fr g).freed = true
  · rw [if_pos hf]
    apply h.fail
    rcases hb with rfl | hb
    · decide
    · simp [hb] at hf
  rw [if_neg hf]
  have hf' : (s.fr g).freed = false := by simpa using hf
  have key : ∀ (inp : Resp V E), ((s.fr g).status = .initial ∨ (s.fr g).status = .yielded) →
      Inv { (s.emit (.adv g c (s.fr g).value)) with
        fr := upd s.fr g { s.fr g with status := .running, inp := inp }
        stack := (g, c) :: s.stack } := by
    intro inp hst
    have hw := h.wf g
    have hnr : ¬ g ∈ s.stack.map (·.1) := by
      rw [← h.run g]; rcases hst with e | e <;> simp [e]
    refine ⟨?_, ?_, ?_, ?_, ?_, ?_, h.uniq, h.objB, h.itB, h.itS, ?_, ?_, ?_, ?_, ?_, ?_, h.ub⟩
    · intro g'
      by_cases hg : g' = g
      · subst hg
        simp only [upd_same]
        refine ⟨fun _ => hw.st (by rcases hst with e | e <;> simp [e]), by simp, by simp, ?_, by simp⟩
        intro _
        exact ⟨by rcases hst with e | e; exact (hw.ini e).2; exact (hw.yld e).2, hf'⟩
      · simp only [upd_other _ _ hg]; exact h.wf g'
    · intro g'
      by_cases hg : g' = g
      · subst hg; simp [State.emit, (h.born g').2 hbn]
      · simp only [State.emit, upd_other _ _ hg]; exact h.born g'
    · intro g'
      by_cases hg : g' = g
      · subst hg; simp
      · simp only [upd_other _ _ hg, List.map_cons, List.mem_cons, hg, false_or]; exact h.run g'
    · simp only [List.map_cons, List.nodup_cons]; exact ⟨hnr, h.nodup⟩
    · intro g' i hm
      rcases List.mem_cons.mp hm with e | e
      · cases e; exact hc
      · exact h.inc g' i e
    · intro o g' ho
      have := h.own o g' ho
      by_cases hg : g' = g
      · subst hg; simp [hf']
      · simp only [upd_other _ _ hg]; exact this
    · intro i g' hi
      by_cases hg : g' = g
      · subst hg; simp
      · simp only [upd_other _ _ hg]; exact h.itG i g' hi
    · show (Spec.after (s.log ++ [_])).ph = _
      rw [Spec.after_snoc]
      funext g'
      by_cases hg : g' = g
      · subst hg; simp [Spec.next, absPh, hf']
      · simp [Spec.next, upd_other, hg, h.ph]
    · show (Spec.after (s.log ++ [_])).it = _
      rw [Spec.after_snoc]; exact h.it
    · show (Spec.after (s.log ++ [_])).obj = _
      rw [Spec.after_snoc]; exact h.obj
    · intro g' h1 h2
      show (Spec.after (s.log ++ [_])).lost g' = true ∨ _
      rw [Spec.after_snoc]
      by_cases hg : g' = g
      · subst hg; exact h.lost g' hbn hf'
      · simp only [upd_other _ _ hg] at h1 h2; exact h.lost g' h1 h2
    · refine h.legal.snoc ?_
      show Spec.ok (Spec.after s.log) _
      refine ⟨?_, ?_⟩
      · rw [h.it, h.obj]; cases c <;> exact hc
      · rw [h.ph]
        rcases hst with e | e
        · rw [(hw.ini e).1]; simp [absPh, hf', e]
        · obtain ⟨v, hv⟩ := Option.isSome_iff_exists.mp (hw.yld e).1
          rw [hv]; simp [absPh, hf', e, hv]
  split
  · rename_i e; exact key _ (.inl e)
  · rename_i e
    split
    · exact key _ (.inr e)
    · rename_i hv; have := ((h.wf g).yld e).1; simp [hv] at this
  · exact h.fail (by decide)
  · exact h.fail (by decide)
  · rename_i e; exact absurd e hbn

/-- Adding one event and changing only objects/iterators. -/
theorem Inv.emitEv {s : State σ V E} (h : Inv s) (e : Ev V E)
    (hok : (Spec.after s.log).ok e) (hph : ((Spec.after s.log).next e).ph = (Spec.after s.log).ph)
    (it' : Nat → Option (Option Nat)) (ni' : Nat) (obj' : Nat → Obj) (no' : Nat)
    (hit : ((Spec.after s.log).next e).it = it') (hobj : ((Spec.after s.log).next e).obj = obj')
    (hinc : ∀ g i, (g, Call.inc i) ∈ s.stack → it' i = some (some g))
    (hown : ∀ o g, obj' o = .live (some g) → ∃ o', s.obj o' = .live (some g))
    (huniq : ∀ o o' g, obj' o = .live (some g) → obj' o' = .live (some g) → o = o')
    (hlost : ∀ g, ((Spec.after s.log).lost g = true ∨ ∃ o, s.obj o = .live (some g)) →
       ((Spec.after s.log).next e).lost g = true ∨ ∃ o, obj' o = .live (some g))
    (hobjB : ∀ o, no' ≤ o → obj' o = .none) (hitB : ∀ i, ni' ≤ i → it' i = none)
    (hitS : ∀ i, i < ni' → it' i ≠ none)
    (hitG : ∀ i g, it' i = some (some g) → (s.fr g).status ≠ .unborn) :
    Inv (({ s with it := it', ni := ni', obj := obj', no := no' } : State σ V E).emit e) := by
  refine ⟨h.wf, h.born, h.run, h.nodup, hinc, ?_, huniq, hobjB, hitB, hitS, hitG, ?_, ?_, ?_, ?_, ?_, h.ub⟩
  · intro o g ho
    obtain ⟨o', ho'⟩ := hown o g ho
    exact h.own o' g ho'
  · show (Spec.after (s.log ++ [e])).ph = _
    rw [Spec.after_snoc, hph]; exact h.ph
  · show (Spec.after (s.log ++ [e])).it = _
    rw [Spec.after_snoc, hit]; rfl
  · show (Spec.after (s.log ++ [e])).obj = _
    rw [Spec.after_snoc, hobj]; rfl
  · intro g h1 h2
    show (Spec.after (s.log ++ [e])).lost g = true ∨ _
    rw [Spec.after_snoc]
    exact hlost g (h.lost g h1 h2)
  · exact h.legal.snoc hok

/-- Adding one event that changes nothing else. -/
theorem Inv.emitQuiet {s : State σ V E} (h : Inv s) (e : Ev V E) (hok : (Spec.after s.log).ok e)
    (hn : (Spec.after s.log).next e = Spec.after s.log) : Inv (s.emit e) := by
  refine Inv.emitEv h e hok (by rw [hn]) s.it s.ni s.obj s.no (by rw [hn]; exact h.it) (by rw [hn]; exact h.obj) h.inc
    (fun o g ho => ⟨o, ho⟩) h.uniq ?_ h.objB h.itB h.itS h.itG
  intro g hg; rw [hn]; exact hg

/-- Only the iterator table changes. -/
theorem Inv.emitIt {s : State σ V E} (h : Inv s) (e : Ev V E) (x : Option (Option Nat)) (hx : x ≠ none)
    (hxg : ∀ g, x = some (some g) → (s.fr g).status ≠ .unborn)
    (hok : (Spec.after s.log).ok e)
    (hn : (Spec.after s.log).next e = { Spec.after s.log with it := upd (Spec.after s.log).it s.ni x }) :
    Inv (({ s with it := upd s.it s.ni x, ni := s.ni + 1 } : State σ V E).emit e) := by
  refine Inv.emitEv h e hok (by rw [hn]) _ _ s.obj s.no (by rw [hn, h.it]) (by rw [hn]; exact h.obj) ?_
    (fun o g ho => ⟨o, ho⟩) h.uniq ?_ h.objB ?_ ?_ ?_
  · intro g i hm
    have := h.inc g i hm
    have hne : i ≠ s.ni := by intro e; have := h.itB i (by omega); simp_all
    rw [upd_other _ _ hne]; exact this
  · intro g hg; rw [hn]; exact hg
  · intro i hi; rw [upd_other _ _ (by omega)]; exact h.itB i (by omega)
  · intro i hi
    by_cases he : i = s.ni
    · subst he; simpa using hx
    · rw [upd_other _ _ he]; exact h.itS i (by omega)
  · intro i g
    by_cases he : i = s.ni
    · subst he; simpa using hxg g
    · rw [upd_other _ _ he]; exact h.itG i g


theorem Inv.itBorn {s : State σ V E} (h : Inv s) {i : Nat} {x : Option (Option Nat)} (e : s.it i = x) (hx : x ≠ none) :
    i < s.ni := by
  rcases Nat.lt_or_ge i s.ni with hl | hl
  · exact hl
  · exact absurd (e ▸ h.itB i hl) hx

theorem Inv.objBorn {s : State σ V E} (h : Inv s) {o : Nat} {x : Obj} (e : s.obj o = x) (hx : x ≠ .none) :
    o < s.no := by
  rcases Nat.lt_or_ge o s.no with hl | hl
  · exact hl
  · exact absurd (e ▸ h.objB o hl) hx

end QCoro.Gen
