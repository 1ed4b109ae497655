import Verif.AsyncGen.Main
set_option linter.unusedSimpArgs false
namespace QCoro.AGen
variable {σ V E : Type}

def Act.simple : Act σ V E → Bool
  | .yield _ | .ret | .throw _ => false
  | _ => true

theorem act_ub {s : State σ V E} (hu : s.ub = none) (k : Nat) (a : Act σ V E) (ha : a.simple = true) (c : Nat) :
    (s.act k a).ub ≠ some (.resumeDestroyed c) ∧ (s.act k a).ub ≠ some (.consumerDestroyed c) := by
  cases a with
  | yield v => simp [Act.simple] at ha
  | ret => simp [Act.simple] at ha
  | throw e => simp [Act.simple] at ha
  | _ =>
    unfold State.act
    try unfold State.advance
    simp only [State.emit, State.reply, State.fail]
    repeat' split
    all_goals simp_all

theorem inv_act {s : State σ V E} (h : Inv s) {k : Nat} {rest : List Nat} (hcur : s.stack = k :: rest) (a : Act σ V E) (ha : a.simple = true) :
    Inv (s.act k a) := by
  cases a with
  | yield v => simp [Act.simple] at ha
  | ret => simp [Act.simple] at ha
  | throw e => simp [Act.simple] at ha
  | create b =>
    unfold State.act; dsimp only
    apply Inv.reply
    exact inv_create h b
  | mkNull =>
    unfold State.act; dsimp only
    apply Inv.reply
    have ho : s.obj s.no = .none := h.objB _ (Nat.le_refl _)
    refine h.objs _ _ _ (by show (Spec.after s.log).obj _ = _; rw [h.obj]; exact ho) rfl rfl rfl rfl ?_ ?_ ?_ ?_ ?_
    · show upd (Spec.after s.log).obj _ _ = _; rw [h.obj]
    · intro o g; by_cases e : o = s.no
      · subst e; simp
      · rw [upd_other _ _ e]; exact fun x => ⟨o, x⟩
    · intro o o' g
      by_cases e : o = s.no <;> by_cases e' : o' = s.no
      · intros; rw [e, e']
      · subst e; simp
      · subst e'; simp
      · rw [upd_other _ _ e, upd_other _ _ e']; exact h.uniq o o' g
    · rintro g (e | ⟨o, e⟩)
      · exact .inl e
      · refine .inr ⟨o, ?_⟩
        rw [upd_other _ _ (by intro e'; subst e'; simp [ho] at e)]; exact e
    · intro o hle; rw [upd_other _ _ (by omega)]; exact h.objB o (by omega)
  | begin o =>
    unfold State.act; dsimp only
    split
    · rename_i g hg
      have := h.own o g hg
      exact inv_advance h hcur (.inr this.1) this.2.1 this.2.2 ⟨o, hg⟩
    · apply Inv.reply
      refine h.emitIt _ _ (by simp) (by simp) ⟨h.runnable (by simp [hcur]), ?_⟩ rfl
      rw [h.it]; exact h.itB _ (Nat.le_refl _)
    · exact h.fail (by decide)
  | inc i =>
    unfold State.act; dsimp only
    split
    · rename_i g hg
      have := h.itG i g hg
      exact inv_advance h hcur (.inl rfl) this.1 this.2 hg
    · exact h.fail (by decide)
    · exact h.fail (by decide)
  | copyIt i =>
    unfold State.act; dsimp only
    split
    · rename_i x hi
      apply Inv.reply
      refine h.emitIt _ _ (by simp) ?_ ?_ ?_
      · intro g e; cases e; exact ⟨i, hi⟩
      · show _ ∧ _; rw [h.it]; exact ⟨by simp [hi], h.itB _ (Nat.le_refl _)⟩
      · simp [Spec.next, h.it, hi]
    · exact h.fail (by decide)
  | isEnd i =>
    unfold State.act; dsimp only
    split
    · rename_i x hi
      apply Inv.reply
      refine h.emitQuiet _ ?_ rfl
      show _ ∧ _
      rw [h.it, hi]; simp
    · exact h.fail (by decide)
  | deref i =>
    unfold State.act; dsimp only
    split
    · rename_i g hg
      split
      · exact h.fail (by decide)
      · rename_i hf
        split
        · rename_i v hs hv
          apply Inv.reply
          refine h.emitQuiet _ ?_ rfl
          refine ⟨h.runnable (by simp [hcur]), by rw [h.it]; exact hg, ?_⟩
          rw [h.ph]; simp [absPh, hf, hs, hv]
        · exact h.fail (by decide)
    · exact h.fail (by decide)
    · exact h.fail (by decide)
  | poke i v =>
    unfold State.act; dsimp only
    split
    · rename_i g hg
      split
      · exact h.fail (by decide)
      · rename_i hf
        split
        · rename_i w hs hv
          apply Inv.reply
          exact inv_poke h hg (by simpa using hf) hs hv
        · exact h.fail (by decide)
    · exact h.fail (by decide)
    · exact h.fail (by decide)
  | moveNew o =>
    unfold State.act; dsimp only
    split
    · rename_i x hx
      apply Inv.reply
      have ho : s.obj s.no = .none := h.objB _ (Nat.le_refl _)
      have hlt := h.objBorn hx (by simp)
      have hne : s.no ≠ o := by omega
      refine h.objs _ _ _ ?_ rfl rfl rfl rfl ?_ ?_ ?_ ?_ ?_
      · show _ ∧ _; rw [h.obj]; exact ⟨⟨x, hx⟩, ho⟩
      · show upd (upd (Spec.after s.log).obj _ _) _ _ = _; rw [h.obj, hx]
      · intro o' g; simp only [upd_apply]
        split
        · simp
        · split
          · intro e; exact ⟨o, by rw [hx]; exact e⟩
          · exact fun e => ⟨o', e⟩
      · intro o1 o2 g
        simp only [upd_apply]
        split <;> split <;> (try split) <;> (try split) <;> (try simp) <;> (try (intros; omega))
        · rename_i a b c d; intro e1 e2; cases e1; have := h.uniq _ _ _ hx e2; omega
        · rename_i a b c d; intro e1 e2; cases e2; have := h.uniq _ _ _ hx e1; omega
        · exact h.uniq _ _ _
      · rintro g (e | ⟨o', e⟩)
        · exact .inl e
        · right
          by_cases e' : o' = o
          · subst e'; refine ⟨s.no, ?_⟩; rw [upd_other _ _ hne, upd_same, ← hx, e]
          · refine ⟨o', ?_⟩
            rw [upd_other _ _ e', upd_other _ _ (by intro e''; subst e''; simp [ho] at e)]; exact e
      · intro o' hle; rw [upd_other _ _ (by omega), upd_other _ _ (by omega)]; exact h.objB o' (by omega)
    · exact h.fail (by decide)
  | moveAssign d c =>
    unfold State.act; dsimp only
    split
    · rename_i old x hd hc
      apply Inv.reply
      have hld := h.objBorn hd (by simp)
      have hlc := h.objBorn hc (by simp)
      refine h.objs _ _ _ ?_ rfl rfl rfl rfl ?_ ?_ ?_ ?_ ?_
      · show _ ∧ _; rw [h.obj]; exact ⟨⟨old, hd⟩, ⟨x, hc⟩⟩
      · show upd (upd (Spec.after s.log).obj _ _) _ _ = _; rw [h.obj, hc]
      · intro o' g; simp only [upd_apply]
        split
        · simp
        · split
          · intro e; exact ⟨c, by rw [hc]; exact e⟩
          · exact fun e => ⟨o', e⟩
      · intro o1 o2 g
        simp only [upd_apply]
        split <;> split <;> (try split) <;> (try split) <;> (try simp) <;> (try (intros; omega))
        · rename_i a b c d; intro e1 e2; cases e1; have := h.uniq _ _ _ hc e2; omega
        · rename_i a b c d; intro e1 e2; cases e2; have := h.uniq _ _ _ hc e1; omega
        · exact h.uniq _ _ _
      · intro g hg
        show (match (Spec.after s.log).obj d with | .live (some g) => upd (Spec.after s.log).lost g true | _ => (Spec.after s.log).lost) g = true ∨ _
        rw [h.obj, hd]
        rcases hg with e | ⟨o', e⟩
        · left
          cases old with
          | none => exact e
          | some g' => simp only [upd_apply]; split <;> simp_all
        · by_cases e1 : o' = d
          · subst e1; rw [hd] at e; cases e; left; simp
          · right
            by_cases e2 : o' = c
            · subst e2; rw [hc] at e; cases e
              exact ⟨d, by rw [upd_other _ _ (fun e => e1 e.symm), upd_same]⟩
            · exact ⟨o', by rw [upd_other _ _ e2, upd_other _ _ e1]; exact e⟩
      · intro o' hle; rw [upd_other _ _ (by omega), upd_other _ _ (by omega)]; exact h.objB o' (by omega)
    · exact h.fail (by decide)
  | swap a b =>
    unfold State.act; dsimp only
    split
    · rename_i x y ha hb
      apply Inv.reply
      have hla := h.objBorn ha (by simp)
      have hlb := h.objBorn hb (by simp)
      refine h.objs _ _ _ ?_ rfl rfl rfl rfl ?_ ?_ ?_ ?_ ?_
      · show _ ∧ _; rw [h.obj]; exact ⟨⟨x, ha⟩, ⟨y, hb⟩⟩
      · show upd (upd (Spec.after s.log).obj _ _) _ _ = _; rw [h.obj, ha, hb]
      · intro o' g; simp only [upd_apply]
        split
        · intro e; exact ⟨a, by rw [ha]; exact e⟩
        · split
          · intro e; exact ⟨b, by rw [hb]; exact e⟩
          · exact fun e => ⟨o', e⟩
      · intro o1 o2 g
        simp only [upd_apply]
        have u := h.uniq
        grind
      · rintro g (e | ⟨o', e⟩)
        · exact .inl e
        · right
          by_cases e1 : o' = a
          · subst e1; rw [ha] at e; cases e; exact ⟨b, by simp⟩
          · by_cases e2 : o' = b
            · subst e2; rw [hb] at e; cases e
              exact ⟨a, by rw [upd_other _ _ (fun e => e1 e.symm), upd_same]⟩
            · exact ⟨o', by rw [upd_other _ _ e2, upd_other _ _ e1]; exact e⟩
      · intro o' hle; rw [upd_other _ _ (by omega), upd_other _ _ (by omega)]; exact h.objB o' (by omega)
    · exact h.fail (by decide)
  | drop o =>
    unfold State.act; dsimp only
    split
    · rename_i g hg
      have hw := h.own o g hg
      simp only [hw.1, Bool.false_eq_true, if_false]
      split
      · exact h.fail (by decide)
      · rename_i hr
        apply Inv.reply
        have := inv_destroy h hg hr
        exact this
    · rename_i ho
      apply Inv.reply
      have hl := h.objBorn ho (by simp)
      refine h.objs _ _ _ (by show (Spec.after s.log).obj _ = _; rw [h.obj]; exact ho) rfl rfl rfl rfl ?_ ?_ ?_ ?_ ?_
      · show upd (Spec.after s.log).obj _ _ = _; rw [h.obj]
      · intro o' g; by_cases e : o' = o
        · subst e; simp
        · rw [upd_other _ _ e]; exact fun x => ⟨o', x⟩
      · intro o1 o2 g
        by_cases e : o1 = o <;> by_cases e' : o2 = o
        · intros; rw [e, e']
        · subst e; simp
        · subst e'; simp
        · rw [upd_other _ _ e, upd_other _ _ e']; exact h.uniq o1 o2 g
      · rintro g (e | ⟨o', e⟩)
        · exact .inl e
        · refine .inr ⟨o', ?_⟩
          rw [upd_other _ _ (by intro e'; subst e'; simp [ho] at e)]; exact e
      · intro o' hle; rw [upd_other _ _ (by omega)]; exact h.objB o' hle
    · exact h.fail (by decide)
  | work n =>
    unfold State.act; dsimp only
    apply Inv.reply
    exact h.emitQuiet _ (h.runnable (by simp [hcur])) rfl
  | awaitExt =>
    unfold State.act; dsimp only
    exact inv_status h k .waitExt (s.fr k).inp s.stack.tail (.suspended k) none (.inl ⟨(h.cur k).2 (by simp [hcur]), rfl, by simp [hcur], rfl⟩)

theorem good_step (P : Prog σ V E) {s : State σ V E} (h : Good s) (op : Op σ) : Good (step P s op) := by
  unfold step
  by_cases hu : s.ub.isSome = true
  · rw [if_pos hu]; exact h
  rw [if_neg hu]
  have hu' : s.ub = none := by simpa using hu
  have hi := h.inv hu'
  split
  · rename_i b
    exact (inv_spawn hi b).good' hu'
  · rename_i c
    split
    · rename_i hw
      split
      · rename_i hf
        have hb := (legal_abandoned s.log hi.legal c).1 (by rw [hi.ph]; simp [absPh, hf]) (.inl (by rw [hi.susp]; simp [absSusp, hw]))
        refine ⟨hi.legal, by simp [State.fail], ?_, by simp [State.fail]⟩
        intro c' hc'
        simp [State.fail] at hc'
        subst hc'; exact hb
      · rename_i hf
        exact (inv_status hi c .running .unit (c :: s.stack) (.resumed c) none (.inr (.inl ⟨hw, rfl, rfl, rfl, by simpa using hf⟩))).good' hu'
    · exact h
  · rename_i k rest hc
    have hrun : (s.fr k).status = .running := (hi.cur k).2 (by simp [hc])
    split
    · rename_i st hst
      dsimp only
      have h1 := hi.bodySt k (P.next st (s.fr k).inp).1 .unit
      generalize hs1 : ({ s with fr := upd s.fr k { s.fr k with st := some (P.next st (s.fr k).inp).1, inp := .unit } } : State σ V E) = s1 at h1
      have hrun1 : (s1.fr k).status = .running := by subst hs1; simpa using hrun
      have hst1 : (s1.fr k).st.isSome = true := by subst hs1; simp
      have hc1 : s1.stack = k :: rest := by subst hs1; exact hc
      have hu1 : s1.ub = none := by subst hs1; exact hu'
      have h2 : Inv (s1.emit (.ran k)) := h1.emitQuiet _ (h1.runnable (by simp [hc1])) rfl
      have hx := (h1.wf k).run hrun1
      have hex := ((h1.wf k).act (by simp [hrun1, Status.active])).1
      generalize (P.next st (s.fr k).inp).2 = a
      by_cases hsim : a.simple = true
      · exact (inv_act h2 hc1 a hsim).good (by
          intro c hcc
          have := act_ub (s := s1.emit (.ran k)) hu1 k a hsim c
          rcases hcc with e | e
          · exact absurd e this.1
          · exact absurd e this.2)
      cases a with
      | yield v =>
        unfold State.act; dsimp only
        split
        · rename_i hg
          exact good_pop h2 hu1 hc1 hg _ _ hx hg rfl (.inl ⟨v, rfl, rfl, rfl, hex⟩) hst1
        · exact (h2.fail (by decide)).good (by simp [State.fail])
      | ret =>
        unfold State.act; dsimp only
        split
        · rename_i hg
          exact good_pop h2 hu1 hc1 hg _ _ hx hg rfl (.inr (.inl ⟨rfl, rfl, rfl, hex⟩)) hst1
        · rename_i hg
          exact (inv_status h2 k .done ((s1.emit (.ran k)).fr k).inp s1.stack.tail (.finished k none) none (.inr (.inr ⟨hrun1, rfl, by simp [State.emit, hc1], rfl, by simpa using hg⟩))).good' hu1
      | throw e =>
        unfold State.act; dsimp only
        split
        · rename_i hg
          exact good_pop h2 hu1 hc1 hg _ _ hx hg rfl (.inr (.inr ⟨e, rfl, rfl, rfl, rfl⟩)) hst1
        · rename_i hg
          exact (inv_status h2 k .done ((s1.emit (.ran k)).fr k).inp s1.stack.tail (.finished k (some e)) (some e) (.inr (.inr ⟨hrun1, rfl, by simp [State.emit, hc1], rfl, by simpa using hg⟩))).good' hu1
      | _ => simp [Act.simple] at hsim
    · rename_i hn
      have := (hi.wf k).st (by simp [hrun]); simp [hn] at this
  · exact h

theorem good_exec (P : Prog σ V E) (ops : List (Op σ)) : Good (exec P ops) := by
  induction ops using snocInd with
  | nil => exact inv_init.good' rfl
  | snoc l a ih => rw [exec_snoc]; exact good_step P ih a

end QCoro.AGen
