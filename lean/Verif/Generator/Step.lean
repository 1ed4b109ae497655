import Verif.Generator.Inv
namespace QCoro.Gen
variable {σ V E : Type}

theorem upd_self {α : Type} (f : Nat → α) (i : Nat) : upd f i (f i) = f := by
  funext j; by_cases h : j = i
  · subst h; simp
  · simp [upd_other, h]

theorem inv_create {s : State σ V E} (h : Inv s) (b : σ) : Inv (s.api (.create b)) := by
  unfold State.api; dsimp only
  apply Inv.reply
  have hnb : (s.fr s.nf).status = .unborn := by
    have := (h.born s.nf); simp at this; exact this
  have hfr := (h.wf s.nf).unb hnb
  have ho : s.obj s.no = .none := h.objB _ (Nat.le_refl _)
  have nown : ∀ o g, s.obj o = .live (some g) → g ≠ s.nf := by
    intro o g hog e; subst e; exact (h.own o _ hog).2 hnb
  refine ⟨?_, ?_, ?_, h.nodup, h.inc, ?_, ?_, ?_, h.itB, h.itS, ?_, ?_, ?_, ?_, ?_, ?_, h.ub⟩
  · intro g
    by_cases hg : g = s.nf
    · subst hg; simp only [State.emit, upd_same]; constructor <;> simp
    · simp only [State.emit, upd_other _ _ hg]; exact h.wf g
  · intro g
    by_cases hg : g = s.nf
    · subst hg; simp [State.emit]
    · simp only [State.emit, upd_other _ _ hg]; rw [← h.born g]; omega
  · intro g
    by_cases hg : g = s.nf
    · subst hg
      have := h.run s.nf
      simp only [State.emit, upd_same]
      rw [← this, hnb]; simp
    · simp only [State.emit, upd_other _ _ hg]; exact h.run g
  · intro o g hog
    by_cases hg : g = s.nf
    · subst hg; simp [State.emit]
    · simp only [State.emit, upd_other _ _ hg]
      by_cases hoo : o = s.no
      · subst hoo; simp [State.emit] at hog; exact absurd hog.symm hg
      · simp only [State.emit, upd_other _ _ hoo] at hog; exact h.own o g hog
  · intro o o' g h1 h2
    simp only [State.emit] at h1 h2
    by_cases e1 : o = s.no <;> by_cases e2 : o' = s.no
    · rw [e1, e2]
    · subst e1; simp only [upd_same, upd_other _ _ e2] at h1 h2
      cases h1; exact absurd rfl (nown _ _ h2)
    · subst e2; simp only [upd_same, upd_other _ _ e1] at h1 h2
      cases h2; exact absurd rfl (nown _ _ h1)
    · simp only [upd_other _ _ e2, upd_other _ _ e1] at h1 h2; exact h.uniq _ _ _ h1 h2
  · intro o hle
    simp only [State.emit] at hle ⊢
    rw [upd_other _ _ (by omega)]; exact h.objB o (by omega)
  · intro i g hi
    have := h.itG i g hi
    by_cases hg : g = s.nf
    · subst hg; exact absurd hnb this
    · simp only [State.emit, upd_other _ _ hg]; exact this
  · show (Spec.after (s.log ++ [_])).ph = _
    rw [Spec.after_snoc]; funext g
    by_cases hg : g = s.nf
    · subst hg; simp [Spec.next, State.emit, absPh]
    · simp [Spec.next, State.emit, upd_other, hg, h.ph]
  · show (Spec.after (s.log ++ [_])).it = _
    rw [Spec.after_snoc]; exact h.it
  · show (Spec.after (s.log ++ [_])).obj = _
    rw [Spec.after_snoc]; simp [Spec.next, State.emit, h.obj]
  · intro g h1 h2
    show (Spec.after (s.log ++ [_])).lost g = true ∨ _
    rw [Spec.after_snoc]
    by_cases hg : g = s.nf
    · subst hg; exact .inr ⟨s.no, by simp [State.emit]⟩
    · simp only [State.emit, upd_other _ _ hg] at h1 h2 ⊢
      rcases h.lost g h1 h2 with e | ⟨o, e⟩
      · exact .inl e
      · exact .inr ⟨o, by rw [upd_other _ _ (by intro e'; subst e'; simp [ho] at e)]; exact e⟩
  · refine h.legal.snoc ?_
    show Spec.ok (Spec.after s.log) _
    exact ⟨by rw [h.ph]; simp [absPh, hnb, hfr], by rw [h.obj]; exact ho⟩

/-- Destroying the frame together with its owner. -/
theorem inv_destroy {s : State σ V E} (h : Inv s) {o g : Nat} (ho : s.obj o = .live (some g))
    (hr : (s.fr g).status ≠ .running) :
    Inv (({ s with obj := upd s.obj o .dead, fr := upd s.fr g { s.fr g with freed := true } } : State σ V E).emit
      (.dropped o (some g))) := by
  obtain ⟨hf, hb⟩ := h.own o g ho
  have ne : ∀ o' g', upd s.obj o .dead o' = .live (some g') → s.obj o' = .live (some g') ∧ g' ≠ g := by
    intro o' g' h1
    by_cases e : o' = o
    · subst e; simp at h1
    · rw [upd_other _ _ e] at h1
      refine ⟨h1, ?_⟩
      intro e'; subst e'; exact e (h.uniq _ _ _ h1 ho)
  refine ⟨?_, ?_, ?_, h.nodup, h.inc, ?_, ?_, ?_, h.itB, h.itS, ?_, ?_, ?_, ?_, ?_, ?_, h.ub⟩
  · intro g'
    by_cases hg : g' = g
    · subst hg; simp only [State.emit, upd_same]
      have w := h.wf g'
      exact ⟨w.st, w.ini, w.yld, fun e => absurd e hr, fun e => absurd e hb⟩
    · simp only [State.emit, upd_other _ _ hg]; exact h.wf g'
  · intro g'
    by_cases hg : g' = g
    · subst hg; simp only [State.emit, upd_same]; exact h.born g'
    · simp only [State.emit, upd_other _ _ hg]; exact h.born g'
  · intro g'
    by_cases hg : g' = g
    · subst hg; simp only [State.emit, upd_same]; exact h.run g'
    · simp only [State.emit, upd_other _ _ hg]; exact h.run g'
  · intro o' g' h1
    obtain ⟨h2, h3⟩ := ne o' g' h1
    simp only [State.emit, upd_other _ _ h3]; exact h.own o' g' h2
  · intro o1 o2 g' h1 h2
    exact h.uniq _ _ _ (ne _ _ h1).1 (ne _ _ h2).1
  · intro o' hle
    simp only [State.emit] at hle ⊢
    have := h.objBorn ho (by simp)
    rw [upd_other _ _ (by omega)]; exact h.objB o' hle
  · intro i g' hi
    have := h.itG i g' hi
    by_cases hg : g' = g
    · subst hg; simp only [State.emit, upd_same]; exact this
    · simp only [State.emit, upd_other _ _ hg]; exact this
  · show (Spec.after (s.log ++ [_])).ph = _
    rw [Spec.after_snoc]; funext g'
    by_cases hg : g' = g
    · subst hg; simp [Spec.next, State.emit, absPh]
    · simp [Spec.next, State.emit, upd_other, hg, h.ph]
  · show (Spec.after (s.log ++ [_])).it = _
    rw [Spec.after_snoc]; exact h.it
  · show (Spec.after (s.log ++ [_])).obj = _
    rw [Spec.after_snoc]; simp [Spec.next, State.emit, h.obj]
  · intro g' h1 h2
    show (Spec.after (s.log ++ [_])).lost g' = true ∨ _
    rw [Spec.after_snoc]
    by_cases hg : g' = g
    · subst hg; simp [State.emit] at h2
    · simp only [State.emit, upd_other _ _ hg] at h1 h2 ⊢
      rcases h.lost g' h1 h2 with e | ⟨o', e⟩
      · exact .inl e
      · refine .inr ⟨o', ?_⟩
        rw [upd_other _ _ (by intro e'; subst e'; rw [ho] at e; cases e; exact hg rfl)]; exact e
  · refine h.legal.snoc ?_
    show Spec.ok (Spec.after s.log) _
    refine ⟨by rw [h.obj]; exact ho, ?_⟩
    rw [h.ph]
    have w := h.wf g
    rcases hs : (s.fr g).status with _ | _ | _ | _ | _
    · exact absurd hs hb
    · left; simp [absPh, hf, hs]
    · right; left
      obtain ⟨v, hv⟩ := Option.isSome_iff_exists.mp (w.yld hs).1
      exact ⟨v, by simp [absPh, hf, hs, hv]⟩
    · exact absurd hs hr
    · right; right; simp [absPh, hf, hs]

theorem inv_poke {s : State σ V E} (h : Inv s) {g : Nat} {v w : V} (hf : (s.fr g).freed = false)
    (hs : (s.fr g).status = .yielded) (hv : (s.fr g).value = some w) :
    Inv (({ s with fr := upd s.fr g { s.fr g with value := some v } } : State σ V E).emit (.poked g v)) := by
  refine ⟨?_, ?_, ?_, h.nodup, h.inc, ?_, h.uniq, h.objB, h.itB, h.itS, ?_, ?_, ?_, ?_, ?_, ?_, h.ub⟩
  · intro g'
    by_cases hg : g' = g
    · subst hg; simp only [State.emit, upd_same]
      have w := h.wf g'
      exact ⟨w.st, by simp [hs], fun e => ⟨rfl, (w.yld e).2⟩, w.run, w.unb⟩
    · simp only [State.emit, upd_other _ _ hg]; exact h.wf g'
  · intro g'
    by_cases hg : g' = g
    · subst hg; simp only [State.emit, upd_same]; exact h.born g'
    · simp only [State.emit, upd_other _ _ hg]; exact h.born g'
  · intro g'
    by_cases hg : g' = g
    · subst hg; simp only [State.emit, upd_same]; exact h.run g'
    · simp only [State.emit, upd_other _ _ hg]; exact h.run g'
  · intro o' g' h1
    by_cases hg : g' = g
    · subst hg; simp only [State.emit, upd_same]; exact h.own o' g' h1
    · simp only [State.emit, upd_other _ _ hg]; exact h.own o' g' h1
  · intro i g' hi
    have := h.itG i g' hi
    by_cases hg : g' = g
    · subst hg; simp only [State.emit, upd_same]; exact this
    · simp only [State.emit, upd_other _ _ hg]; exact this
  · show (Spec.after (s.log ++ [_])).ph = _
    rw [Spec.after_snoc]; funext g'
    by_cases hg : g' = g
    · subst hg; simp [Spec.next, State.emit, absPh, hf, hs]
    · simp [Spec.next, State.emit, upd_other, hg, h.ph]
  · show (Spec.after (s.log ++ [_])).it = _
    rw [Spec.after_snoc]; exact h.it
  · show (Spec.after (s.log ++ [_])).obj = _
    rw [Spec.after_snoc]; exact h.obj
  · intro g' h1 h2
    show (Spec.after (s.log ++ [_])).lost g' = true ∨ _
    rw [Spec.after_snoc]
    by_cases hg : g' = g
    · subst hg; exact h.lost g' (by simp [hs]) hf
    · simp only [State.emit, upd_other _ _ hg] at h1 h2; exact h.lost g' h1 h2
  · refine h.legal.snoc ?_
    show Spec.ok (Spec.after s.log) _
    exact ⟨w, by rw [h.ph]; simp [absPh, hf, hs, hv]⟩

theorem Inv.objs {s : State σ V E} (h : Inv s) (e : Ev V E) (obj' : Nat → Obj) (no' : Nat)
    (hok : (Spec.after s.log).ok e)
    (hph : ((Spec.after s.log).next e).ph = (Spec.after s.log).ph)
    (hit : ((Spec.after s.log).next e).it = (Spec.after s.log).it)
    (hobj : ((Spec.after s.log).next e).obj = obj')
    (hown : ∀ o g, obj' o = .live (some g) → ∃ o', s.obj o' = .live (some g))
    (huniq : ∀ o o' g, obj' o = .live (some g) → obj' o' = .live (some g) → o = o')
    (hlost : ∀ g, ((Spec.after s.log).lost g = true ∨ ∃ o, s.obj o = .live (some g)) →
       ((Spec.after s.log).next e).lost g = true ∨ ∃ o, obj' o = .live (some g))
    (hobjB : ∀ o, no' ≤ o → obj' o = .none) :
    Inv (({ s with obj := obj', no := no' } : State σ V E).emit e) :=
  Inv.emitEv h e hok hph s.it s.ni obj' no' (by rw [hit]; exact h.it) hobj h.inc hown huniq hlost hobjB h.itB h.itS h.itG

theorem inv_api {s : State σ V E} (h : Inv s) (a : Api σ V)  : Inv (s.api a) := by
  cases a with
  | create b => exact inv_create h b
  | mkNull =>
    unfold State.api; dsimp only
    apply Inv.reply
    have ho : s.obj s.no = .none := h.objB _ (Nat.le_refl _)
    refine h.objs _ _ _ (by show (Spec.after s.log).obj _ = _; rw [h.obj]; exact ho) rfl rfl ?_ ?_ ?_ ?_ ?_
    · show upd (Spec.after s.log).obj _ _ = _; rw [h.obj]
    · intro o g; by_cases e : o = s.no
      · subst e; simp
      · rw [upd_other _ _ e]; exact fun x => ⟨o, x⟩
    · intro o o' g
      by_cases e : o = s.no <;> by_cases e' : o' = s.no
      · intros; rw [e, e']
      · subst e; simp
      · subst e'; simp
      · rw [upd_other _ _ e, upd_other _ _ e']; exact h.uniq o o' g
    · rintro g (e | ⟨o, e⟩)
      · exact .inl e
      · refine .inr ⟨o, ?_⟩
        rw [upd_other _ _ (by intro e'; subst e'; simp [ho] at e)]; exact e
    · intro o hle; rw [upd_other _ _ (by omega)]; exact h.objB o (by omega)
  | begin o =>
    unfold State.api; dsimp only
    split
    · rename_i g hg
      have := h.own o g hg
      exact inv_resume h (.inr this.1) this.2 hg
    · exact h.fail (by decide)
    · exact h.fail (by decide)
  | endIt =>
    unfold State.api; dsimp only
    apply Inv.reply
    exact h.emitIt _ _ (by simp) (by simp) (by show (Spec.after s.log).it _ = _; rw [h.it]; exact h.itB _ (Nat.le_refl _)) rfl
  | inc i =>
    unfold State.api; dsimp only
    split
    · rename_i hi
      apply Inv.reply
      exact h.emitQuiet _ (by show (Spec.after s.log).it _ = _; rw [h.it]; exact hi) rfl
    · rename_i g hg
      exact inv_resume h (.inl rfl) (h.itG i g hg) hg
    · exact h.fail (by decide)
  | copyIt i =>
    unfold State.api; dsimp only
    split
    · rename_i x hi
      apply Inv.reply
      refine h.emitIt _ _ (by simp) ?_ ?_ ?_
      · intro g e; cases e; exact h.itG i g hi
      · show _ ∧ _; rw [h.it]; exact ⟨by simp [hi], h.itB _ (Nat.le_refl _)⟩
      · simp [Spec.next, h.it, hi]
    · exact h.fail (by decide)
  | cmp i j =>
    unfold State.api; dsimp only
    split
    · rename_i a b ha hb
      apply Inv.reply
      refine h.emitQuiet _ ?_ rfl
      show _ ∧ _ ∧ _
      rw [h.it, ha, hb]; simp
    · exact h.fail (by decide)
  | deref i =>
    unfold State.api; dsimp only
    split
    · rename_i g hg
      split
      · exact h.fail (by decide)
      · rename_i hf
        split
        · rename_i v hs hv
          apply Inv.reply
          refine h.emitQuiet _ ?_ rfl
          refine ⟨g, by rw [h.it]; exact hg, ?_⟩
          rw [h.ph]; simp [absPh, hf, hs, hv]
        · exact h.fail (by decide)
    · exact h.fail (by decide)
    · exact h.fail (by decide)
  | poke i v =>
    unfold State.api; dsimp only
    split
    · rename_i g hg
      split
      · exact h.fail (by decide)
      · rename_i hf
        split
        · rename_i w hs hv
          apply Inv.reply
          exact inv_poke h (by simpa using hf) hs hv
        · exact h.fail (by decide)
    · exact h.fail (by decide)
    · exact h.fail (by decide)
  | moveNew o =>
    unfold State.api; dsimp only
    split
    · rename_i x hx
      apply Inv.reply
      have ho : s.obj s.no = .none := h.objB _ (Nat.le_refl _)
      have hlt := h.objBorn hx (by simp)
      have hne : s.no ≠ o := by omega
      refine h.objs _ _ _ ?_ rfl rfl ?_ ?_ ?_ ?_ ?_
      · show _ ∧ _; rw [h.obj]; exact ⟨⟨x, hx⟩, ho⟩
      · show upd (upd (Spec.after s.log).obj _ _) _ _ = _; rw [h.obj, hx]
      · intro o' g; simp only [upd_apply]
        split
        · simp
        · split
          · intro e; exact ⟨o, by rw [hx]; exact e⟩
          · exact fun e => ⟨o', e⟩
      · intro o1 o2 g
        simp only [upd_apply]
        split <;> split <;> (try split) <;> (try split) <;> (try simp) <;> (try (intros; omega))
        · rename_i a b c d; intro e1 e2; cases e1; have := h.uniq _ _ _ hx e2; omega
        · rename_i a b c d; intro e1 e2; cases e2; have := h.uniq _ _ _ hx e1; omega
        · exact h.uniq _ _ _
      · rintro g (e | ⟨o', e⟩)
        · exact .inl e
        · right
          by_cases e' : o' = o
          · subst e'; refine ⟨s.no, ?_⟩; rw [upd_other _ _ hne, upd_same, ← hx, e]
          · refine ⟨o', ?_⟩
            rw [upd_other _ _ e', upd_other _ _ (by intro e''; subst e''; simp [ho] at e)]; exact e
      · intro o' hle; rw [upd_other _ _ (by omega), upd_other _ _ (by omega)]; exact h.objB o' (by omega)
    · exact h.fail (by decide)
  | moveAssign d c =>
    unfold State.api; dsimp only
    split
    · rename_i old x hd hc
      apply Inv.reply
      have hld := h.objBorn hd (by simp)
      have hlc := h.objBorn hc (by simp)
      refine h.objs _ _ _ ?_ rfl rfl ?_ ?_ ?_ ?_ ?_
      · show _ ∧ _; rw [h.obj]; exact ⟨⟨old, hd⟩, ⟨x, hc⟩⟩
      · show upd (upd (Spec.after s.log).obj _ _) _ _ = _; rw [h.obj, hc]
      · intro o' g; simp only [upd_apply]
        split
        · simp
        · split
          · intro e; exact ⟨c, by rw [hc]; exact e⟩
          · exact fun e => ⟨o', e⟩
      · intro o1 o2 g
        simp only [upd_apply]
        split <;> split <;> (try split) <;> (try split) <;> (try simp) <;> (try (intros; omega))
        · rename_i a b c d; intro e1 e2; cases e1; have := h.uniq _ _ _ hc e2; omega
        · rename_i a b c d; intro e1 e2; cases e2; have := h.uniq _ _ _ hc e1; omega
        · exact h.uniq _ _ _
      · intro g hg
        show (match (Spec.after s.log).obj d with | .live (some g) => upd (Spec.after s.log).lost g true | _ => (Spec.after s.log).lost) g = true ∨ _
        rw [h.obj, hd]
        rcases hg with e | ⟨o', e⟩
        · left
          cases old with
          | none => exact e
          | some g' => simp only [upd_apply]; split <;> simp_all
        · by_cases e1 : o' = d
          · subst e1; rw [hd] at e; cases e; left; simp
          · right
            by_cases e2 : o' = c
            · subst e2; rw [hc] at e; cases e
              exact ⟨d, by rw [upd_other _ _ (fun e => e1 e.symm), upd_same]⟩
            · exact ⟨o', by rw [upd_other _ _ e2, upd_other _ _ e1]; exact e⟩
      · intro o' hle; rw [upd_other _ _ (by omega), upd_other _ _ (by omega)]; exact h.objB o' (by omega)
    · exact h.fail (by decide)
  | drop o =>
    unfold State.api; dsimp only
    split
    · rename_i g hg
      have hw := h.own o g hg
      simp only [hw.1, Bool.false_eq_true, if_false]
      split
      · exact h.fail (by decide)
      · rename_i hr
        apply Inv.reply
        have := inv_destroy h hg hr
        exact this
    · rename_i ho
      apply Inv.reply
      have hl := h.objBorn ho (by simp)
      refine h.objs _ _ _ (by show (Spec.after s.log).obj _ = _; rw [h.obj]; exact ho) rfl rfl ?_ ?_ ?_ ?_ ?_
      · show upd (Spec.after s.log).obj _ _ = _; rw [h.obj]
      · intro o' g; by_cases e : o' = o
        · subst e; simp
        · rw [upd_other _ _ e]; exact fun x => ⟨o', x⟩
      · intro o1 o2 g
        by_cases e : o1 = o <;> by_cases e' : o2 = o
        · intros; rw [e, e']
        · subst e; simp
        · subst e'; simp
        · rw [upd_other _ _ e, upd_other _ _ e']; exact h.uniq o1 o2 g
      · rintro g (e | ⟨o', e⟩)
        · exact .inl e
        · refine .inr ⟨o', ?_⟩
          rw [upd_other _ _ (by intro e'; subst e'; simp [ho] at e)]; exact e
      · intro o' hle; rw [upd_other _ _ (by omega)]; exact h.objB o' hle
    · exact h.fail (by decide)
  | work n =>
    unfold State.api; dsimp only
    apply Inv.reply
    refine h.emitQuiet _ ?_ rfl
    intro g hg
    rw [h.ph]
    have : g ∈ s.stack.map (·.1) := by
      cases hs : s.stack with
      | nil => simp [hs] at hg
      | cons a l => simp [hs] at hg; simp [hg]
    have hr := (h.run g).2 this
    simp [absPh, hr, ((h.wf g).run hr).2]

end QCoro.Gen
