import Verif.AsyncGen.Inv
set_option linter.unusedSimpArgs false
namespace QCoro.AGen
variable {σ V E : Type}

theorem upd_self {α : Type} (f : Nat → α) (i : Nat) : upd f i (f i) = f := by
  funext j; by_cases h : j = i
  · subst h; simp
  · simp [upd_other, h]

theorem Inv.fresh {s : State σ V E} (h : Inv s) : (s.fr s.nf).status = .unborn := by
  have := h.born s.nf; simp at this; exact this

theorem inv_create {s : State σ V E} (h : Inv s) (b : σ) :
    Inv (({ s with
        fr := upd s.fr s.nf { st := some b, status := .initial, isGen := true }, nf := s.nf + 1
        obj := upd s.obj s.no (.live (some s.nf)), no := s.no + 1 } : State σ V E).emit (.created s.nf s.no)) := by
  have hnb := h.fresh
  have hfr := (h.wf s.nf).unb hnb
  have ho : s.obj s.no = .none := h.objB _ (Nat.le_refl _)
  have nown : ∀ o g, s.obj o = .live (some g) → g ≠ s.nf := by
    intro o g hog e; subst e; exact (h.own o _ hog).2.1 hnb
  have nw : ∀ k g c, (s.fr k).status = .waitGen g c → g ≠ s.nf := by
    intro k g c hk e; subst e
    rcases h.wait _ _ _ hk with e | e
    · rw [hfr] at e; cases e
    · rw [hnb] at e; simp [Status.active] at e
  refine ⟨?_, ?_, ?_, h.nd, ?_, ?_, ?_, ?_, ?_, ?_, h.itB, h.itS, ?_, ?_, ?_, ?_, ?_, ?_, ?_, ?_, h.ub⟩
  · intro g
    by_cases hg : g = s.nf
    · subst hg; simp only [State.emit, upd_same]; constructor <;> simp [Status.active]
    · simp only [State.emit, upd_other _ _ hg]; exact h.wf g
  · intro g
    by_cases hg : g = s.nf
    · subst hg; simp [State.emit]
    · simp only [State.emit, upd_other _ _ hg]; rw [← h.born g]; omega
  · intro g
    by_cases hg : g = s.nf
    · subst hg
      have := h.cur s.nf
      simp only [State.emit, upd_same]
      rw [← this, hnb]; simp
    · simp only [State.emit, upd_other _ _ hg]; exact h.cur g
  · intro k g c hk
    simp only [State.emit] at hk ⊢
    by_cases hkn : k = s.nf
    · subst hkn; simp at hk
    · rw [upd_other _ _ hkn] at hk
      rw [upd_other _ _ (nw k g c hk)]; exact h.wait k g c hk
  · intro g k h1 h2 h3 h4
    simp only [State.emit] at h1 h2 h3 h4 ⊢
    by_cases hg : g = s.nf
    · subst hg; simp [Status.active] at h3
    · rw [upd_other _ _ hg] at h1 h2 h3 h4
      obtain ⟨c, hc⟩ := h.cons g k h1 h2 h3 h4
      refine ⟨c, ?_⟩
      rw [upd_other _ _ (by intro e; subst e; rw [hnb] at hc; cases hc)]; exact hc
  · intro k g i hk
    simp only [State.emit] at hk ⊢
    by_cases hkn : k = s.nf
    · subst hkn; simp at hk
    · rw [upd_other _ _ hkn] at hk; exact h.inc k g i hk
  · intro o g hog
    by_cases hg : g = s.nf
    · subst hg; simp [State.emit]
    · simp only [State.emit, upd_other _ _ hg]
      by_cases hoo : o = s.no
      · subst hoo; simp [State.emit] at hog; exact absurd hog.symm hg
      · simp only [State.emit, upd_other _ _ hoo] at hog; exact h.own o g hog
  · intro o o' g h1 h2
    simp only [State.emit] at h1 h2
    by_cases e1 : o = s.no <;> by_cases e2 : o' = s.no
    · rw [e1, e2]
    · subst e1; simp only [upd_same, upd_other _ _ e2] at h1 h2
      cases h1; exact absurd rfl (nown _ _ h2)
    · subst e2; simp only [upd_same, upd_other _ _ e1] at h1 h2
      cases h2; exact absurd rfl (nown _ _ h1)
    · simp only [upd_other _ _ e2, upd_other _ _ e1] at h1 h2; exact h.uniq _ _ _ h1 h2
  · intro o hle
    simp only [State.emit] at hle ⊢
    rw [upd_other _ _ (by omega)]; exact h.objB o (by omega)
  · intro i g hi
    have := h.itG i g hi
    by_cases hg : g = s.nf
    · subst hg; exact absurd hnb this.1
    · simp only [State.emit, upd_other _ _ hg]; exact this
  · intro g; show (Spec.after (s.log ++ [_])).ph g = _
    rw [Spec.after_snoc]
    by_cases hg : g = s.nf
    · subst hg; simp [Spec.next, State.emit, absPh]
    · simp [Spec.next, State.emit, upd_other, hg, h.ph]
  · intro g; show (Spec.after (s.log ++ [_])).cw g = _
    rw [Spec.after_snoc]
    by_cases hg : g = s.nf
    · subst hg; simp [Spec.next, State.emit, h.cw, absCw, hnb]
    · simp [Spec.next, State.emit, upd_other, hg, h.cw]
  · intro g; show (Spec.after (s.log ++ [_])).susp g = _
    rw [Spec.after_snoc]
    by_cases hg : g = s.nf
    · subst hg; simp [Spec.next, State.emit, h.susp, absSusp, hnb]
    · simp [Spec.next, State.emit, upd_other, hg, h.susp]
  · show (Spec.after (s.log ++ [_])).it = _
    rw [Spec.after_snoc]; exact h.it
  · show (Spec.after (s.log ++ [_])).obj = _
    rw [Spec.after_snoc]; simp [Spec.next, State.emit, h.obj]
  · intro g h1 h2 h3
    show (Spec.after (s.log ++ [_])).lost g = true ∨ _
    rw [Spec.after_snoc]
    by_cases hg : g = s.nf
    · subst hg; exact .inr ⟨s.no, by simp [State.emit]⟩
    · simp only [State.emit, upd_other _ _ hg] at h1 h2 h3 ⊢
      rcases h.lost g h1 h2 h3 with e | ⟨o, e⟩
      · exact .inl e
      · exact .inr ⟨o, by rw [upd_other _ _ (by intro e'; subst e'; simp [ho] at e)]; exact e⟩
  · refine h.legal.snoc ?_
    show Spec.ok (Spec.after s.log) _
    exact ⟨by rw [h.ph]; simp [absPh, hnb, hfr], by rw [h.obj]; exact ho⟩

theorem inv_spawn {s : State σ V E} (h : Inv s) (b : σ) :
    Inv (({ s with fr := upd s.fr s.nf { st := some b, status := .running }, nf := s.nf + 1, stack := s.nf :: s.stack } : State σ V E).emit (.spawned s.nf)) := by
  have hnb := h.fresh
  have hfr := (h.wf s.nf).unb hnb
  have nown : ∀ o g, s.obj o = .live (some g) → g ≠ s.nf := by
    intro o g hog e; subst e; exact (h.own o _ hog).2.1 hnb
  have nw : ∀ k g c, (s.fr k).status = .waitGen g c → g ≠ s.nf := by
    intro k g c hk e; subst e
    rcases h.wait _ _ _ hk with e | e
    · rw [hfr] at e; cases e
    · rw [hnb] at e; simp [Status.active] at e
  have hns : s.nf ∉ s.stack := by rw [← h.cur, hnb]; simp
  refine ⟨?_, ?_, ?_, List.nodup_cons.2 ⟨hns, h.nd⟩, ?_, ?_, ?_, ?_, h.uniq, h.objB, h.itB, h.itS, ?_, ?_, ?_, ?_, ?_, ?_, ?_, ?_, h.ub⟩
  · intro g
    by_cases hg : g = s.nf
    · subst hg; simp only [State.emit, upd_same]; constructor <;> simp [Status.active]
    · simp only [State.emit, upd_other _ _ hg]; exact h.wf g
  · intro g
    by_cases hg : g = s.nf
    · subst hg; simp [State.emit]
    · simp only [State.emit, upd_other _ _ hg]; rw [← h.born g]; omega
  · intro g
    by_cases hg : g = s.nf
    · subst hg; simp [State.emit]
    · simp only [State.emit, upd_other _ _ hg]
      rw [h.cur g]; simp [hg]
  · intro k g c hk
    simp only [State.emit] at hk ⊢
    by_cases hkn : k = s.nf
    · subst hkn; simp at hk
    · rw [upd_other _ _ hkn] at hk
      rw [upd_other _ _ (nw k g c hk)]; exact h.wait k g c hk
  · intro g k h1 h2 h3 h4
    simp only [State.emit] at h1 h2 h3 h4 ⊢
    by_cases hg : g = s.nf
    · subst hg; simp at h2
    · rw [upd_other _ _ hg] at h1 h2 h3 h4
      obtain ⟨c, hc⟩ := h.cons g k h1 h2 h3 h4
      refine ⟨c, ?_⟩
      rw [upd_other _ _ (by intro e; subst e; rw [hnb] at hc; cases hc)]; exact hc
  · intro k g i hk
    simp only [State.emit] at hk ⊢
    by_cases hkn : k = s.nf
    · subst hkn; simp at hk
    · rw [upd_other _ _ hkn] at hk; exact h.inc k g i hk
  · intro o g hog
    simp only [State.emit, upd_other _ _ (nown o g hog)]; exact h.own o g hog
  · intro i g hi
    have := h.itG i g hi
    by_cases hg : g = s.nf
    · subst hg; exact absurd hnb this.1
    · simp only [State.emit, upd_other _ _ hg]; exact this
  · intro g; show (Spec.after (s.log ++ [_])).ph g = _
    rw [Spec.after_snoc]
    by_cases hg : g = s.nf
    · subst hg; simp [Spec.next, State.emit, absPh]
    · simp [Spec.next, State.emit, upd_other, hg, h.ph]
  · intro g; show (Spec.after (s.log ++ [_])).cw g = _
    rw [Spec.after_snoc]
    by_cases hg : g = s.nf
    · subst hg; simp [Spec.next, State.emit, h.cw, absCw, hnb]
    · simp [Spec.next, State.emit, upd_other, hg, h.cw]
  · intro g; show (Spec.after (s.log ++ [_])).susp g = _
    rw [Spec.after_snoc]
    by_cases hg : g = s.nf
    · subst hg; simp [Spec.next, State.emit, h.susp, absSusp, hnb]
    · simp [Spec.next, State.emit, upd_other, hg, h.susp]
  · show (Spec.after (s.log ++ [_])).it = _
    rw [Spec.after_snoc]; exact h.it
  · show (Spec.after (s.log ++ [_])).obj = _
    rw [Spec.after_snoc]; exact h.obj
  · intro g h1 h2 h3
    show (Spec.after (s.log ++ [_])).lost g = true ∨ _
    rw [Spec.after_snoc]
    by_cases hg : g = s.nf
    · subst hg; simp [State.emit] at h3
    · simp only [State.emit, upd_other _ _ hg] at h1 h2 h3 ⊢
      exact h.lost g h1 h2 h3
  · refine h.legal.snoc ?_
    show Spec.ok (Spec.after s.log) _
    show (Spec.after s.log).ph s.nf = _
    rw [h.ph]; simp [absPh, hnb, hfr]

/-- One existing frame changes its status among active/done states (awaitExt, resume, finish). -/
theorem inv_status {s : State σ V E} (h : Inv s) (k : Nat) (st' : Status) (inp' : Resp V E) (cur' : List Nat) (e : Ev V E) (y : Option E)
    (hst : (s.fr k).status = .running ∧ st' = .waitExt ∧ s.stack = k :: cur' ∧ e = .suspended k ∨
      (s.fr k).status = .waitExt ∧ st' = .running ∧ cur' = k :: s.stack ∧ e = .resumed k ∧ (s.fr k).freed = false ∨
      (s.fr k).status = .running ∧ st' = .done ∧ s.stack = k :: cur' ∧ e = .finished k y ∧ (s.fr k).isGen = false) :
    Inv (({ s with fr := upd s.fr k { s.fr k with status := st', inp := inp' }, stack := cur' } : State σ V E).emit e) := by
  have w := h.wf k
  have hact : (s.fr k).status.active = true := by rcases hst with e | e | e <;> simp [e.1, Status.active]
  have hact' : st'.active = true ∨ (st' = .done ∧ (s.fr k).isGen = false) := by
    rcases hst with e | e | e
    · left; simp [e.2.1, Status.active]
    · left; simp [e.2.1, Status.active]
    · right; exact ⟨e.2.1, e.2.2.2.2⟩
  have hnu : st' ≠ .unborn := by rcases hst with e | e | e <;> simp [e.2.1]
  have hnu0 : (s.fr k).status ≠ .unborn := by rcases hst with e | e | e <;> simp [e.1]
  have hnw : ∀ g c, st' ≠ .waitGen g c := by intro g c; rcases hst with e | e | e <;> simp [e.2.1]
  have hnw0 : ∀ g c, (s.fr k).status ≠ .waitGen g c := by intro g c; rcases hst with e | e | e <;> simp [e.1]
  have hgen : ∀ g, (s.fr g).isGen = true → st' = .done → g ≠ k := by
    intro g hg hd e; subst e; rcases hst with e | e | e
    · rw [e.2.1] at hd; cases hd
    · rw [e.2.1] at hd; cases hd
    · rw [e.2.2.2.2] at hg; cases hg
  have hnd : cur'.Nodup ∧ (∀ g, g ≠ k → (g ∈ cur' ↔ g ∈ s.stack)) ∧ (k ∈ cur' ↔ st' = .running) := by
    have hn := h.nd
    rcases hst with e | e | e
    · rw [e.2.2.1] at hn ⊢; simp at hn; exact ⟨hn.2, fun g hg => by simp [hg], by simp [e.2.1, hn.1]⟩
    · have : k ∉ s.stack := by rw [← h.cur, e.1]; simp
      rw [e.2.2.1]; exact ⟨List.nodup_cons.2 ⟨this, hn⟩, fun g hg => by simp [hg], by simp [e.2.1]⟩
    · rw [e.2.2.1] at hn ⊢; simp at hn; exact ⟨hn.2, fun g hg => by simp [hg], by simp [e.2.1, hn.1]⟩
  refine ⟨?_, ?_, ?_, hnd.1, ?_, ?_, ?_, ?_, h.uniq, h.objB, h.itB, h.itS, ?_, ?_, ?_, ?_, ?_, ?_, ?_, ?_, h.ub⟩
  · intro g
    by_cases hg : g = k
    · subst hg; simp only [State.emit, upd_same]
      refine ⟨fun _ => w.st hnu0, fun x => absurd x hnu, ?_, ?_, fun _ => w.act hact, ?_, w.gen⟩
      · intro x; rcases hst with e | e | e <;> simp [e.2.1] at x
      · intro x; rcases hst with e | e | e <;> simp [e.2.1] at x
      · intro x; rcases hst with e | e | e
        · simp [e.2.1] at x
        · exact e.2.2.2.2
        · simp [e.2.1] at x
    · simp only [State.emit, upd_other _ _ hg]; exact h.wf g
  · intro g
    by_cases hg : g = k
    · subst hg; simp [State.emit, hnu, (h.born g).2 hnu0]
    · simp only [State.emit, upd_other _ _ hg]; exact h.born g
  · intro g
    by_cases hg : g = k
    · subst hg; simp only [State.emit, upd_same]; exact hnd.2.2.symm
    · simp only [State.emit, upd_other _ _ hg]; rw [h.cur g]; exact (hnd.2.1 g hg).symm
  · intro k' g c hk'
    simp only [State.emit] at hk' ⊢
    by_cases hkk : k' = k
    · subst hkk; simp at hk'; exact absurd hk' (hnw g c)
    · rw [upd_other _ _ hkk] at hk'
      have := h.wait k' g c hk'
      by_cases hg : g = k
      · subst hg; simp only [upd_same]
        rcases this with x | x
        · exact .inl x
        · rcases hact' with y | y
          · exact .inr ⟨y, x.2⟩
          · rw [y.2] at x; cases x.2.1
      · rw [upd_other _ _ hg]; exact this
  · intro g k' h1 h2 h3 h4
    simp only [State.emit] at h1 h2 h3 h4 ⊢
    have : ∃ c, (s.fr k').status = .waitGen g c := by
      by_cases hg : g = k
      · subst hg; simp only [upd_same] at h1 h2 h3 h4; exact h.cons g k' h1 h2 hact h4
      · rw [upd_other _ _ hg] at h1 h2 h3 h4; exact h.cons g k' h1 h2 h3 h4
    obtain ⟨c, hc⟩ := this
    refine ⟨c, ?_⟩
    rw [upd_other _ _ (by intro e; subst e; exact hnw0 _ _ hc)]; exact hc
  · intro k' g i hk'
    simp only [State.emit] at hk' ⊢
    by_cases hkk : k' = k
    · subst hkk; simp at hk'; exact absurd hk' (hnw g _)
    · rw [upd_other _ _ hkk] at hk'; exact h.inc k' g i hk'
  · intro o g hog
    simp only [State.emit]
    by_cases hg : g = k
    · subst hg; simp only [upd_same]; exact ⟨(h.own o g hog).1, hnu, (h.own o g hog).2.2⟩
    · rw [upd_other _ _ hg]; exact h.own o g hog
  · intro i g hi
    simp only [State.emit]
    by_cases hg : g = k
    · subst hg; simp only [upd_same]; exact ⟨hnu, (h.itG i g hi).2⟩
    · rw [upd_other _ _ hg]; exact h.itG i g hi
  · intro g; show (Spec.after (s.log ++ [e])).ph g = _
    rw [Spec.after_snoc]
    have hp := h.ph g
    by_cases hg : g = k
    · subst hg
      rcases hst with e | e | e
      · rw [e.2.2.2]; simp [Spec.next, State.emit, hp, absPh, e.1, e.2.1]
      · rw [e.2.2.2.1]; simp [Spec.next, State.emit, hp, absPh, e.1, e.2.1]
      · rw [e.2.2.2.1]; simp [Spec.next, State.emit, absPh, e.2.1, e.2.2.2.2, w.run e.1]
    · rcases hst with e | e | e
      · rw [e.2.2.2]; simp [Spec.next, State.emit, upd_other, hg, hp]
      · rw [e.2.2.2.1]; simp [Spec.next, State.emit, upd_other, hg, hp]
      · rw [e.2.2.2.1]; simp [Spec.next, State.emit, upd_other, hg, hp]
  · intro g; show (Spec.after (s.log ++ [e])).cw g = _
    rw [Spec.after_snoc]
    have hp := h.cw g
    have hne : ((Spec.after s.log).next e).cw g = (Spec.after s.log).cw g := by
      rcases hst with x | x | x
      · rw [x.2.2.2]; rfl
      · rw [x.2.2.2.1]; rfl
      · rw [x.2.2.2.1]; rfl
    rw [hne, hp]
    by_cases hg : g = k
    · subst hg; rcases hst with e | e | e <;> simp [State.emit, absCw, e.1, e.2.1]
    · simp [State.emit, upd_other, hg]
  · intro g; show (Spec.after (s.log ++ [e])).susp g = _
    rw [Spec.after_snoc]
    have hp := h.susp g
    by_cases hg : g = k
    · subst hg
      rcases hst with e | e | e
      · rw [e.2.2.2]; simp [Spec.next, State.emit, absSusp, e.2.1]
      · rw [e.2.2.2.1]; simp [Spec.next, State.emit, absSusp, e.2.1]
      · rw [e.2.2.2.1]; simp [Spec.next, State.emit, hp, absSusp, e.2.1, e.1]
    · rcases hst with e | e | e
      · rw [e.2.2.2]; simp [Spec.next, State.emit, upd_other, hg, hp]
      · rw [e.2.2.2.1]; simp [Spec.next, State.emit, upd_other, hg, hp]
      · rw [e.2.2.2.1]; simp [Spec.next, State.emit, upd_other, hg, hp]
  · show (Spec.after (s.log ++ [e])).it = _
    rw [Spec.after_snoc]; rcases hst with x | x | x
    · rw [x.2.2.2]; exact h.it
    · rw [x.2.2.2.1]; exact h.it
    · rw [x.2.2.2.1]; exact h.it
  · show (Spec.after (s.log ++ [e])).obj = _
    rw [Spec.after_snoc]; rcases hst with x | x | x
    · rw [x.2.2.2]; exact h.obj
    · rw [x.2.2.2.1]; exact h.obj
    · rw [x.2.2.2.1]; exact h.obj
  · intro g h1 h2 h3
    show (Spec.after (s.log ++ [e])).lost g = true ∨ _
    rw [Spec.after_snoc]
    have hl : ((Spec.after s.log).next e).lost g = (Spec.after s.log).lost g := by
      rcases hst with x | x | x
      · rw [x.2.2.2]; rfl
      · rw [x.2.2.2.1]; rfl
      · rw [x.2.2.2.1]; rfl
    rw [hl]
    simp only [State.emit] at h1 h2 h3 ⊢
    by_cases hg : g = k
    · subst hg; simp only [upd_same] at h1 h2 h3; exact h.lost g hnu0 h2 h3
    · rw [upd_other _ _ hg] at h1 h2 h3; exact h.lost g h1 h2 h3
  · refine h.legal.snoc ?_
    show Spec.ok (Spec.after s.log) _
    rcases hst with x | x | x
    · rw [x.2.2.2]; exact h.runnable ((h.cur k).1 x.1)
    · rw [x.2.2.2.1]
      refine ⟨by rw [h.susp]; simp [absSusp, x.1], by rw [h.cw]; simp [absCw, x.1], ?_⟩
      have hf := x.2.2.2.2
      rw [h.ph]
      cases hg : (s.fr k).isGen with
      | false => left; simp [absPh, hf, x.1, hg]
      | true =>
        right
        obtain ⟨k', hk'⟩ := Option.isSome_iff_exists.mp ((w.act hact).2 hg)
        exact ⟨k', by simp [absPh, hf, x.1, hg, hk']⟩
    · rw [x.2.2.2.1]
      refine ⟨h.runnable ((h.cur k).1 x.1), ?_⟩
      rw [h.ph]; simp [absPh, x.1, x.2.2.2.2, w.run x.1]

/-- Destroying the frame together with its owner. -/
theorem inv_destroy {s : State σ V E} (h : Inv s) {o g : Nat} (ho : s.obj o = .live (some g))
    (hr : (s.fr g).status ≠ .running) :
    Inv (({ s with obj := upd s.obj o .dead, fr := upd s.fr g { s.fr g with freed := true } } : State σ V E).emit
      (.dropped o (some g))) := by
  obtain ⟨hf, hb, hgn⟩ := h.own o g ho
  have ne : ∀ o' g', upd s.obj o .dead o' = .live (some g') → s.obj o' = .live (some g') ∧ g' ≠ g := by
    intro o' g' h1
    by_cases e : o' = o
    · subst e; simp at h1
    · rw [upd_other _ _ e] at h1
      refine ⟨h1, ?_⟩
      intro e'; subst e'; exact e (h.uniq _ _ _ h1 ho)
  refine ⟨?_, ?_, ?_, h.nd, ?_, ?_, ?_, ?_, ?_, ?_, h.itB, h.itS, ?_, ?_, ?_, ?_, ?_, ?_, ?_, ?_, h.ub⟩
  · intro g'
    by_cases hg : g' = g
    · subst hg; simp only [State.emit, upd_same]
      have w := h.wf g'
      exact ⟨w.st, fun e => absurd e hb, w.ini, w.yld, w.act, fun e => absurd e hr, fun _ => hgn⟩
    · simp only [State.emit, upd_other _ _ hg]; exact h.wf g'
  · intro g'
    by_cases hg : g' = g
    · subst hg; simp only [State.emit, upd_same]; exact h.born g'
    · simp only [State.emit, upd_other _ _ hg]; exact h.born g'
  · intro g'
    by_cases hg : g' = g
    · subst hg; simp only [State.emit, upd_same]; exact h.cur g'
    · simp only [State.emit, upd_other _ _ hg]; exact h.cur g'
  · intro k g' c hk
    simp only [State.emit] at hk ⊢
    have hk' : (s.fr k).status = .waitGen g' c := by
      by_cases e : k = g
      · subst e; simpa using hk
      · rw [upd_other _ _ e] at hk; exact hk
    by_cases hg : g' = g
    · subst hg; left; simp
    · rw [upd_other _ _ hg]; exact h.wait k g' c hk'
  · intro g' k h1 h2 h3 h4
    simp only [State.emit] at h1 h2 h3 h4 ⊢
    by_cases hg : g' = g
    · subst hg; simp at h1
    · rw [upd_other _ _ hg] at h1 h2 h3 h4
      obtain ⟨c, hc⟩ := h.cons g' k h1 h2 h3 h4
      refine ⟨c, ?_⟩
      by_cases e : k = g
      · subst e; simpa using hc
      · rw [upd_other _ _ e]; exact hc
  · intro k g' i hk
    simp only [State.emit] at hk ⊢
    by_cases e : k = g
    · subst e; simp at hk; exact h.inc _ _ _ hk
    · rw [upd_other _ _ e] at hk; exact h.inc _ _ _ hk
  · intro o' g' h1
    obtain ⟨h2, h3⟩ := ne o' g' h1
    simp only [State.emit, upd_other _ _ h3]; exact h.own o' g' h2
  · intro o1 o2 g' h1 h2
    exact h.uniq _ _ _ (ne _ _ h1).1 (ne _ _ h2).1
  · intro o' hle
    simp only [State.emit] at hle ⊢
    have := h.objBorn ho (by simp)
    rw [upd_other _ _ (by omega)]; exact h.objB o' hle
  · intro i g' hi
    have := h.itG i g' hi
    by_cases hg : g' = g
    · subst hg; simp only [State.emit, upd_same]; exact this
    · simp only [State.emit, upd_other _ _ hg]; exact this
  · intro g'; show (Spec.after (s.log ++ [_])).ph g' = _
    rw [Spec.after_snoc]
    by_cases hg : g' = g
    · subst hg; simp [Spec.next, State.emit, absPh]
    · simp [Spec.next, State.emit, upd_other, hg, h.ph]
  · intro g'; show (Spec.after (s.log ++ [_])).cw g' = _
    rw [Spec.after_snoc]
    by_cases hg : g' = g
    · subst hg; simp [Spec.next, State.emit, absCw, h.cw]
    · simp [Spec.next, State.emit, upd_other, hg, h.cw]
  · intro g'; show (Spec.after (s.log ++ [_])).susp g' = _
    rw [Spec.after_snoc]
    by_cases hg : g' = g
    · subst hg; simp [Spec.next, State.emit, absSusp, h.susp]
    · simp [Spec.next, State.emit, upd_other, hg, h.susp]
  · show (Spec.after (s.log ++ [_])).it = _
    rw [Spec.after_snoc]; exact h.it
  · show (Spec.after (s.log ++ [_])).obj = _
    rw [Spec.after_snoc]; simp [Spec.next, State.emit, h.obj]
  · intro g' h1 h2 h3
    show (Spec.after (s.log ++ [_])).lost g' = true ∨ _
    rw [Spec.after_snoc]
    by_cases hg : g' = g
    · subst hg; simp [State.emit] at h2
    · simp only [State.emit, upd_other _ _ hg] at h1 h2 h3 ⊢
      rcases h.lost g' h1 h2 h3 with e | ⟨o', e⟩
      · exact .inl e
      · refine .inr ⟨o', ?_⟩
        rw [upd_other _ _ (by intro e'; subst e'; rw [ho] at e; cases e; exact hg rfl)]; exact e
  · refine h.legal.snoc ?_
    show Spec.ok (Spec.after s.log) _
    refine ⟨by rw [h.obj]; exact ho, ?_⟩
    rw [h.ph, h.susp, h.cw]
    have w := h.wf g
    rcases hs : (s.fr g).status with _ | _ | _ | _ | _ | ⟨g', c⟩ | _
    · exact absurd hs hb
    · left; simp [absPh, hf, hs]
    · exact absurd hs hr
    · right; left
      obtain ⟨v, hv⟩ := Option.isSome_iff_exists.mp (w.yld hs).2.1
      exact ⟨v, by simp [absPh, hf, hs, hv]⟩
    · right; right; right
      obtain ⟨k, hk⟩ := Option.isSome_iff_exists.mp ((w.act (by simp [hs, Status.active])).2 hgn)
      exact ⟨⟨k, by simp [absPh, hf, hs, hgn, hk]⟩, .inl (by simp [absSusp, hs])⟩
    · right; right; right
      obtain ⟨k, hk⟩ := Option.isSome_iff_exists.mp ((w.act (by simp [hs, Status.active])).2 hgn)
      exact ⟨⟨k, by simp [absPh, hf, hs, hgn, hk]⟩, .inr (by simp [absCw, hs])⟩
    · right; right; left; simp [absPh, hf, hs, hgn]

theorem inv_poke {s : State σ V E} (h : Inv s) {i g : Nat} {v w : V} (hi : s.it i = some (some g)) (hf : (s.fr g).freed = false)
    (hs : (s.fr g).status = .atYield) (hv : (s.fr g).value = some w) :
    Inv (({ s with fr := upd s.fr g { s.fr g with value := some v } } : State σ V E).emit (.poked i g v)) := by
  have hst : ∀ c, ((upd s.fr g { s.fr g with value := some v }) c).status = (s.fr c).status := by
    intro c; simp only [upd_apply]; split <;> simp_all
  have hfr : ∀ c, ((upd s.fr g { s.fr g with value := some v }) c).freed = (s.fr c).freed := by
    intro c; simp only [upd_apply]; split <;> simp_all
  have hgen : ∀ c, ((upd s.fr g { s.fr g with value := some v }) c).isGen = (s.fr c).isGen := by
    intro c; simp only [upd_apply]; split <;> simp_all
  have hco : ∀ c, ((upd s.fr g { s.fr g with value := some v }) c).consumer = (s.fr c).consumer := by
    intro c; simp only [upd_apply]; split <;> simp_all
  refine ⟨?_, ?_, ?_, h.nd, ?_, ?_, ?_, ?_, h.uniq, h.objB, h.itB, h.itS, ?_, ?_, ?_, ?_, ?_, ?_, ?_, ?_, h.ub⟩
  · intro c
    have w := h.wf c
    by_cases e : c = g
    · subst e
      refine ⟨?_, ?_, ?_, ?_, ?_, ?_, ?_⟩ <;> simp_all [State.emit, Status.active]
      · exact w.st (by simp [hs])
      · exact ⟨(w.yld hs).1, (w.yld hs).2.2⟩
    · simp only [State.emit, upd_other _ _ e]; exact w
  · intro c; simp only [State.emit, hst]; exact h.born c
  · intro c; simp only [State.emit, hst]; exact h.cur c
  · intro k g' c; simp only [State.emit, hst, hfr, hgen, hco]; exact h.wait k g' c
  · intro g' k; simp only [State.emit, hst, hfr, hgen, hco]; exact h.cons g' k
  · intro k g' j; simp only [State.emit, hst]; exact h.inc k g' j
  · intro o g'; simp only [State.emit, hst, hfr, hgen]; exact h.own o g'
  · intro j g'; simp only [State.emit, hst, hgen]; exact h.itG j g'
  · intro c
    show (Spec.after (s.log ++ [_])).ph c = _
    rw [Spec.after_snoc]
    show upd (Spec.after s.log).ph g (.at v) c = absPh ((upd s.fr g { s.fr g with value := some v }) c)
    by_cases e : c = g
    · subst e; simp [absPh, hf, hs]
    · rw [upd_other _ _ e, upd_other _ _ e]; exact h.ph c
  · intro c
    show (Spec.after (s.log ++ [_])).cw c = _
    rw [Spec.after_snoc]
    simp only [State.emit, absCw, hst]; exact h.cw c
  · intro c
    show (Spec.after (s.log ++ [_])).susp c = _
    rw [Spec.after_snoc]
    simp only [State.emit, absSusp, hst]; exact h.susp c
  · show (Spec.after (s.log ++ [_])).it = _
    rw [Spec.after_snoc]; exact h.it
  · show (Spec.after (s.log ++ [_])).obj = _
    rw [Spec.after_snoc]; exact h.obj
  · intro g'
    show _ → _ → _ → (Spec.after (s.log ++ [_])).lost g' = true ∨ _
    rw [Spec.after_snoc]
    simp only [State.emit, hst, hfr, hgen]; exact h.lost g'
  · refine h.legal.snoc ?_
    show Spec.ok (Spec.after s.log) _
    exact ⟨by rw [h.it]; exact hi, w, by rw [h.ph]; simp [absPh, hf, hs, hv]⟩

theorem inv_advance {s : State σ V E} (h : Inv s) {k g : Nat} {c : Call} {bad : Ub} {rest : List Nat} (hc : s.stack = k :: rest)
    (hb : bad = .iterDangling ∨ (s.fr g).freed = false)
    (hbn : (s.fr g).status ≠ .unborn) (hgn : (s.fr g).isGen = true)
    (hcall : match c with | .begin => ∃ o, s.obj o = .live (some g) | .inc i => s.it i = some (some g)) :
    Inv (s.advance k g c bad) := by
  unfold State.advance
  by_cases hf : (s.fr g).freed = true
  · rw [if_pos hf]
    apply h.fail
    rcases hb with rfl | hb
    · decide
    · simp [hb] at hf
  rw [if_neg hf]
  have hf' : (s.fr g).freed = false := by simpa using hf
  have hrk := (h.cur k).2 (by simp [hc])
  have hnd := h.nd
  rw [hc] at hnd
  simp at hnd
  have wk := h.wf k
  have wg := h.wf g
  have key : ((s.fr g).status = .initial ∨ (s.fr g).status = .atYield) → ∀ inp : Resp V E,
      Inv (({ s with fr := upd (upd s.fr k { s.fr k with status := .waitGen g c }) g { s.fr g with consumer := some k, status := .running, inp := inp }, stack := g :: rest } : State σ V E).emit (.adv g k c)) := by
    intro hst inp
    have hkg : k ≠ g := by intro e; subst e; rcases hst with e | e <;> simp [hrk] at e
    have hgk : g ≠ k := fun e => hkg e.symm
    have hna : (s.fr g).status.active = false := by rcases hst with e | e <;> simp [e, Status.active]
    have nw : ∀ k' c', (s.fr k').status ≠ .waitGen g c' := by
      intro k' c' e
      rcases h.wait _ _ _ e with x | x
      · rw [hf'] at x; cases x
      · rw [hna] at x; cases x.1
    have hexc : (s.fr g).exc = none := by
      rcases hst with e | e
      · exact (wg.ini e).2.2
      · exact (wg.yld e).2.2
    -- frame lookup
    have fg : ∀ c', (upd (upd s.fr k { s.fr k with status := .waitGen g c }) g
        { s.fr g with consumer := some k, status := .running, inp := inp }) c' =
        if c' = g then { s.fr g with consumer := some k, status := .running, inp := inp } else
        if c' = k then { s.fr k with status := .waitGen g c } else s.fr c' := by
      intro c'; simp only [upd_apply]
    have hgs : g ∉ s.stack := by rw [← h.cur]; rcases hst with e | e <;> simp [e]
    have hgr : g ∉ rest := fun x => hgs (by simp [hc, x])
    refine ⟨?_, ?_, ?_, List.nodup_cons.2 ⟨hgr, hnd.2⟩, ?_, ?_, ?_, ?_, h.uniq, h.objB, h.itB, h.itS, ?_, ?_, ?_, ?_, ?_, ?_, ?_, ?_, h.ub⟩
    · intro c'
      simp only [State.emit, fg]
      split
      · refine ⟨fun _ => wg.st hbn, by simp, by simp, by simp, fun _ => ⟨hexc, fun _ => rfl⟩, fun _ => hf', wg.gen⟩
      · split
        · refine ⟨fun _ => wk.st (by simp [hrk]), by simp, by simp, by simp, fun _ => wk.act (by simp [hrk, Status.active]),
            by simp, wk.gen⟩
        · exact h.wf c'
    · intro c'
      simp only [State.emit, fg]
      split
      · rename_i e; subst e; simp [(h.born c').2 hbn]
      · split
        · rename_i e; subst e; simp [(h.born c').2 (by simp [hrk])]
        · exact h.born c'
    · intro c'
      simp only [State.emit, fg]
      split
      · rename_i e; subst e; simp
      · rename_i e
        split
        · rename_i e2; subst e2; simp [e, hnd.1]
        · rename_i e2
          rw [h.cur c', hc]; simp [e, e2]
    · intro k' g' c' hk'
      simp only [State.emit, fg] at hk' ⊢
      by_cases e1 : k' = g
      · subst e1; simp at hk'
      · rw [if_neg e1] at hk'
        by_cases e2 : k' = k
        · subst e2; simp at hk'
          obtain ⟨rfl, rfl⟩ := hk'
          right; simp [Status.active, hgn]
        · rw [if_neg e2] at hk'
          have hne : g' ≠ g := by intro e; subst e; exact nw k' c' hk'
          rw [if_neg hne]
          have := h.wait k' g' c' hk'
          by_cases e3 : g' = k
          · subst e3; simp only [if_true]
            rcases this with x | x
            · exact .inl x
            · exact .inr ⟨by simp [Status.active], x.2⟩
          · rw [if_neg e3]; exact this
    · intro g' k' h1 h2 h3 h4
      simp only [State.emit, fg] at h1 h2 h3 h4 ⊢
      by_cases e1 : g' = g
      · subst e1; simp at h4; subst h4
        refine ⟨c, ?_⟩
        simp [hkg]
      · rw [if_neg e1] at h1 h2 h3 h4
        have : ∃ c', (s.fr k').status = .waitGen g' c' := by
          by_cases e2 : g' = k
          · subst e2; simp only [if_true] at h1 h2 h3 h4
            exact h.cons g' k' h1 h2 (by simp [hrk, Status.active]) h4
          · rw [if_neg e2] at h1 h2 h3 h4; exact h.cons g' k' h1 h2 h3 h4
        obtain ⟨c', hc'⟩ := this
        have n1 : k' ≠ g := by intro e; subst e; rcases hst with e | e <;> simp [e] at hc'
        have n2 : k' ≠ k := by intro e; subst e; simp [hrk] at hc'
        exact ⟨c', by simp [n1, n2, hc']⟩
    · intro k' g' i hk'
      simp only [State.emit, fg] at hk' ⊢
      by_cases e1 : k' = g
      · subst e1; simp at hk'
      · rw [if_neg e1] at hk'
        by_cases e2 : k' = k
        · subst e2; simp at hk'
          obtain ⟨rfl, rfl⟩ := hk'; exact hcall
        · rw [if_neg e2] at hk'; exact h.inc k' g' i hk'
    · intro o g' ho
      simp only [State.emit, fg]
      have := h.own o g' ho
      split
      · simp [hf', hgn]
      · split
        · rename_i e; subst e; exact ⟨this.1, by simp, this.2.2⟩
        · exact this
    · intro i g' hi
      simp only [State.emit, fg]
      have := h.itG i g' hi
      split
      · simp [hgn]
      · split
        · rename_i e; subst e; exact ⟨by simp, this.2⟩
        · exact this
    · intro c'; show (Spec.after (s.log ++ [_])).ph c' = _
      rw [Spec.after_snoc]
      simp only [State.emit, fg, Spec.next, upd_apply]
      split
      · simp [absPh, hf', hgn]
      · split
        · rename_i e; subst e; rw [h.ph]; simp [absPh, hrk]
        · exact h.ph c'
    · intro c'; show (Spec.after (s.log ++ [_])).cw c' = _
      rw [Spec.after_snoc]
      simp only [State.emit, fg, Spec.next, upd_apply]
      by_cases e1 : c' = g
      · subst e1; simp only [if_true, if_neg hgk]; rw [h.cw]; rcases hst with e | e <;> simp [absCw, e]
      · rw [if_neg e1]
        by_cases e2 : c' = k
        · subst e2; simp [absCw]
        · simp only [if_neg e2]; exact h.cw c'
    · intro c'; show (Spec.after (s.log ++ [_])).susp c' = _
      rw [Spec.after_snoc]
      simp only [State.emit, fg, Spec.next]
      split
      · rename_i e; subst e; rw [h.susp]; rcases hst with e | e <;> simp [absSusp, e]
      · split
        · rename_i e; subst e; rw [h.susp]; simp [absSusp, hrk]
        · exact h.susp c'
    · show (Spec.after (s.log ++ [_])).it = _
      rw [Spec.after_snoc]; exact h.it
    · show (Spec.after (s.log ++ [_])).obj = _
      rw [Spec.after_snoc]; exact h.obj
    · intro g' h1 h2 h3
      show (Spec.after (s.log ++ [_])).lost g' = true ∨ _
      rw [Spec.after_snoc]
      simp only [State.emit, fg] at h1 h2 h3
      by_cases e1 : g' = g
      · subst e1; exact h.lost g' hbn hf' hgn
      · rw [if_neg e1] at h1 h2 h3
        by_cases e2 : g' = k
        · subst e2; simp only [if_true] at h1 h2 h3
          exact h.lost g' (by simp [hrk]) h2 h3
        · rw [if_neg e2] at h1 h2 h3; exact h.lost g' h1 h2 h3
    · refine h.legal.snoc ?_
      show Spec.ok (Spec.after s.log) _
      refine ⟨h.runnable (by simp [hc]), ?_, ?_⟩
      · rw [h.ph]
        rcases hst with e | e
        · left; simp [absPh, hf', e]
        · right
          obtain ⟨v, hv⟩ := Option.isSome_iff_exists.mp (wg.yld e).2.1
          exact ⟨v, by simp [absPh, hf', e, hv]⟩
      · rw [h.it, h.obj]; cases c <;> exact hcall
  have hne : ((s.fr g).status = .initial ∨ (s.fr g).status = .atYield) → g ≠ k := by
    intro hst e; subst e; rcases hst with e | e <;> simp [hrk] at e
  split
  · rename_i e
    have := key (.inl e) (s.fr g).wake
    have hgk := hne (.inl e)
    simpa only [upd_other _ _ hgk, hc, List.tail_cons] using this
  · rename_i e
    have := key (.inr e) (s.fr g).wake
    have hgk := hne (.inr e)
    simpa only [upd_other _ _ hgk, hc, List.tail_cons] using this
  · exact h.fail (by decide)
  · rename_i e; exact absurd e hbn
  · exact h.fail (by decide)

end QCoro.AGen
