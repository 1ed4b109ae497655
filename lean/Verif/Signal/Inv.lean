import Verif.Signal.Spec
/- Invariant and refinement for signal waits. -/
set_option linter.unusedSimpArgs false
namespace QCoro.Sig
variable {α : Type}

/-- Posted emissions addressed to wait `w`. -/
def mine (w : Nat) (l : List (Nat × α)) : List α := l.filterMap (fun p => if p.1 = w then some p.2 else none)

/-- What a wait in the model must look like, given the abstract state. -/
def Rel (s : State α) (x : Wait α) (w : Nat) : Ph α → Prop
  | .unborn => x.waiting = false ∧ x.conn = false ∧ x.timer = none ∧ x.timerConn = false
  | .over => x.waiting = false ∧ x.conn = false ∧ x.timer = none ∧ x.timerConn = false
  | .waiting th k t0 ems dead => dead = false ∧ x.waiting = true ∧ x.thread = th ∧ x.kind = k ∧ x.result = none ∧
      x.hasTimer = decide (k.ms > -1) ∧ mine w (s.posted th) = ems ∧ x.conn = s.alive ∧
      x.timerConn = (s.alive && x.hasTimer) ∧
      (∀ d, x.timer = some d → x.hasTimer = true ∧ d = t0 + k.ms.toNat) ∧
      (s.alive = true → x.hasTimer = true → x.timer = some (t0 + k.ms.toNat))

structure Inv (s : State α) : Prop where
  alive : (Spec.after s.log).alive = s.alive
  rel : ∀ w, Rel s (s.ws w) w ((Spec.after s.log).ph w)
  born : ∀ w, s.nw ≤ w → (Spec.after s.log).ph w = .unborn
  post : ∀ t p, p ∈ s.posted t → (s.ws p.1).waiting = true ∧ (s.ws p.1).thread = t
  legal : Legal Spec.next Spec.ok {} s.log

theorem inv_init : Inv ({} : State α) :=
  ⟨rfl, fun _ => ⟨rfl, rfl, rfl, rfl⟩, fun _ _ => rfl, by simp, Legal.nil⟩

theorem Rel.of_waiting {s : State α} {x : Wait α} {w : Nat} {p : Ph α} (h : Rel s x w p) (hw : x.waiting = true) :
    ∃ th k t0 ems, p = .waiting th k t0 ems false := by
  cases p with
  | unborn => simp [Rel, hw] at h
  | over => simp [Rel, hw] at h
  | waiting th k t0 ems dead => obtain ⟨rfl, _⟩ := h; exact ⟨_, _, _, _, rfl⟩

theorem mine_append (w : Nat) (a b : List (Nat × α)) : mine w (a ++ b) = mine w a ++ mine w b := by simp [mine]

theorem mine_filter_ne (w w' : Nat) (l : List (Nat × α)) (h : w ≠ w') : mine w (l.filter (fun p => p.1 != w')) = mine w l := by
  induction l with
  | nil => rfl
  | cons p l ih =>
    have ih' : (l.filter (fun p => p.1 != w')).filterMap (fun p => if p.1 = w then some p.2 else none) =
      l.filterMap (fun p => if p.1 = w then some p.2 else none) := ih
    show ((p :: l).filter (fun p => p.1 != w')).filterMap (fun p => if p.1 = w then some p.2 else none) =
      (p :: l).filterMap (fun p => if p.1 = w then some p.2 else none)
    by_cases e : p.1 = w'
    · rw [List.filter_cons_of_neg (by simp [e])]
      rw [ih', List.filterMap_cons_none (by rw [if_neg (by rw [e]; exact fun x => h x.symm)])]
    · rw [List.filter_cons_of_pos (by simp [e])]
      simp only [List.filterMap_cons, ih']

/-- Everything about the state after `resume`, without undefined behaviour bookkeeping. -/
theorem inv_resume {s0 s : State α} (h : Inv s0) {w th : Nat} {r : Option α}
    (hlog : s.log = s0.log) (halive : s.alive = s0.alive) (hnw : s.nw = s0.nw)
    (hws : ∀ w', w' ≠ w → s.ws w' = s0.ws w') (hr : (s.ws w).result = r)
    (hpost : ∀ t, ∃ l, s0.posted t = l ++ s.posted t ∧ ∀ p ∈ l, p.1 = w)
    (hok : (Spec.after s0.log).ok (.resumed w th r s.now false)) :
    Inv (s.resume w th false) := by
  have key : ∀ (t : State α), t.log = s.log ++ [.resumed w th r s.now false] → t.alive = s.alive → t.nw = s.nw →
      (∀ w', w' ≠ w → t.ws w' = s.ws w') → (t.ws w).waiting = false → (t.ws w).conn = false → (t.ws w).timer = none → (t.ws w).timerConn = false →
      (t.posted = fun t => (s.posted t).filter (fun p => p.1 != w)) → Inv t := by
    intro t h1 h2 h3 h4 h5 h6 h7 h7' h8
    have hl : t.log = s0.log ++ [.resumed w th r s.now false] := by rw [h1, hlog]
    refine ⟨?_, ?_, ?_, ?_, ?_⟩
    · rw [hl, Spec.after_snoc, h2, halive]; exact h.alive
    · intro w'
      rw [hl, Spec.after_snoc]
      by_cases e : w' = w
      · subst e; simp [Spec.next, Rel, h5, h6, h7, h7']
      · have := h.rel w'
        simp only [Spec.next, upd_other _ _ e]
        rw [h4 w' e, hws w' e]
        cases hp : (Spec.after s0.log).ph w' with
        | unborn => rw [hp] at this; exact this
        | over => rw [hp] at this; exact this
        | waiting th k t0 ems dead =>
          rw [hp] at this
          obtain ⟨a1, a2, a3, a4, a5, a6, a7, a8, a9⟩ := this
          refine ⟨a1, a2, a3, a4, a5, a6, ?_, ?_, ?_⟩
          · rw [h8]; simp only; rw [mine_filter_ne _ _ _ e, ← a7]
            obtain ⟨l, hl1, hl2⟩ := hpost th
            rw [hl1, mine_append]
            have : mine w' l = [] := by
              simp only [mine, List.filterMap_eq_nil_iff]
              intro p hp; rw [hl2 p hp, if_neg (fun x => e (Eq.symm x))]
            simp [this]
          · rw [h2, halive]; exact a8
          · rw [h2, halive]; exact a9
    · intro w' hw'
      rw [hl, Spec.after_snoc]
      have hb := h.born w' (by rw [← hnw, ← h3]; exact hw')
      have : w' ≠ w := by
        rintro rfl; simp [Spec.ok, hb] at hok
      simp [Spec.next, upd_other _ _ this, hb]
    · intro t' p hp
      rw [h8] at hp
      simp at hp
      rw [h4 p.1 hp.2, hws p.1 hp.2]
      obtain ⟨l, hl1, _⟩ := hpost t'
      exact h.post t' p (by rw [hl1]; simp [hp.1])
    · rw [hl]; exact h.legal.snoc hok
  unfold State.resume
  simp only [hr]
  split
  · exact key _ rfl rfl rfl (fun w' e => by simp [State.emit, upd_other _ _ e]) (by simp [State.emit]) (by simp [State.emit]) (by simp [State.emit]) (by simp [State.emit]) rfl
  · exact key _ rfl rfl rfl (fun w' e => by simp [State.emit, upd_other _ _ e]) (by simp [State.emit]) (by simp [State.emit]) (by simp [State.emit]) (by simp [State.emit]) rfl

/-- State after an emission: posted to every connected wait. -/
theorem emit_fold (th : Nat) (a : α) (l : List Nat) (hl : l.Nodup) (s : State α) :
    l.foldl (fun s w => s.activate th a w) s =
      { s with posted := fun t => s.posted t ++ l.filterMap (fun w => if (s.ws w).conn = true ∧ (s.ws w).thread = t then some (w, a) else none) } := by
  induction l generalizing s with
  | nil => simp
  | cons w l ih =>
    simp only [List.foldl_cons]
    rw [ih (List.nodup_cons.mp hl).2]
    by_cases hc : (s.ws w).conn = true
    · simp only [State.activate, hc, if_true, connType]
      congr 1
      funext t
      by_cases ht : (s.ws w).thread = t
      · subst ht; simp [hc, List.filterMap_cons]
      · have : t ≠ (s.ws w).thread := fun e => ht e.symm
        simp [upd_other _ _ this, List.filterMap_cons, ht]
    · simp [State.activate, hc, List.filterMap_cons]

theorem mine_range (w n : Nat) (a : α) (c : Nat → Bool) :
    mine w ((List.range n).filterMap (fun v => if c v = true then some (v, a) else none)) =
      if w < n ∧ c w = true then [a] else [] := by
  induction n with
  | zero => simp [mine]
  | succ n ih =>
    rw [List.range_succ, List.filterMap_append, mine_append, ih]
    by_cases hc : c n = true
    · simp only [List.filterMap_cons, hc, if_true, List.filterMap_nil, mine]
      by_cases e : n = w
      · subst e; simp [hc]
      · simp [e]; by_cases hw : c w = true
        · simp [hw]; by_cases hlt : w < n
          · simp [hlt]; omega
          · simp [hlt]; omega
        · simp [hw]
    · simp only [List.filterMap_cons, hc, List.filterMap_nil, mine]
      by_cases e : n = w
      · subst e; simp [hc]
      · by_cases hw : c w = true
        · simp [hw]; by_cases hlt : w < n
          · simp [hlt]; omega
          · simp [hlt]; omega
        · simp [hw]

theorem inv_step {s : State α} (h : Inv s) (op : Op α) : Inv (step s op) := by
  unfold step
  split
  · exact h
  rename_i hub
  cases op with
  | time d =>
    refine ⟨h.alive, ?_, h.born, h.post, h.legal⟩
    intro w; have := h.rel w
    revert this; show Rel s _ w _ → Rel _ _ w _
    cases (Spec.after s.log).ph w <;> exact id
  | destroy =>
    dsimp only
    split
    · rename_i hal
      refine ⟨?_, ?_, ?_, ?_, ?_⟩
      · show (Spec.after (s.log ++ [_])).alive = _
        rw [Spec.after_snoc]; rfl
      · intro w; have := h.rel w
        show Rel _ _ w ((Spec.after (s.log ++ [Ev.destroyed])).ph w)
        rw [Spec.after_snoc]
        simp only [Spec.next]
        cases hp : (Spec.after s.log).ph w with
        | unborn => rw [hp] at this; exact ⟨this.1, rfl, this.2.2.1, rfl⟩
        | over => rw [hp] at this; exact ⟨this.1, rfl, this.2.2.1, rfl⟩
        | waiting th k t0 ems dead =>
          rw [hp] at this
          obtain ⟨a1, a2, a3, a4, a5, a6, a7, a8, a9, a10, a11⟩ := this
          exact ⟨a1, a2, a3, a4, a5, a6, a7, rfl, rfl, a10, by simp [State.emit]⟩
      · intro w hw
        show (Spec.after (s.log ++ [Ev.destroyed])).ph w = _
        rw [Spec.after_snoc]; exact h.born w hw
      · exact fun t p hp => h.post t p hp
      · exact h.legal.snoc (by show (Spec.after s.log).alive = true; rw [h.alive]; exact hal)
    · exact h
  | emit th a =>
    dsimp only
    split
    · rename_i hal
      rw [emit_fold _ _ _ List.nodup_range]
      refine ⟨?_, ?_, ?_, ?_, ?_⟩
      · show (Spec.after (s.log ++ [_])).alive = _
        rw [Spec.after_snoc]; exact h.alive
      · intro w; have := h.rel w
        show Rel _ _ w ((Spec.after (s.log ++ [Ev.emitted th a])).ph w)
        rw [Spec.after_snoc]
        simp only [Spec.next]
        have hb := h.born w
        cases hp : (Spec.after s.log).ph w with
        | unborn => rw [hp] at this; exact this
        | over => rw [hp] at this; exact this
        | waiting th' k t0 ems dead =>
          rw [hp] at this
          have hlt : w < s.nw := by
            rcases Nat.lt_or_ge w s.nw with x | x
            · exact x
            · have := hb x; rw [hp] at this; cases this
          obtain ⟨a1, a2, a3, a4, a5, a6, a7, a8, a9, a10, a11⟩ := this
          refine ⟨a1, a2, a3, a4, a5, a6, ?_, a8, a9, a10, a11⟩
          show mine w (s.posted th' ++ _) = _
          rw [mine_append, a7]
          have := mine_range w s.nw a (fun v => decide ((s.ws v).conn = true ∧ (s.ws v).thread = th'))
          simp only [decide_eq_true_eq] at this
          show ems ++ mine w ((List.range s.nw).filterMap (fun v => if (s.ws v).conn = true ∧ (s.ws v).thread = th' then some (v, a) else none)) = _
          rw [this]
          simp [hlt, a8, a3, hal]
      · intro w hw
        show (Spec.after (s.log ++ [Ev.emitted th a])).ph w = _
        rw [Spec.after_snoc]; simp [Spec.next, h.born w hw, Ph.saw]
      · intro t p hp
        simp only [State.emit] at hp
        rcases List.mem_append.mp hp with hp | hp
        · exact h.post t p hp
        · obtain ⟨v, _, hv⟩ := List.mem_filterMap.mp hp
          have hv : (if (s.ws v).conn = true ∧ (s.ws v).thread = t then some (v, a) else none) = some p := hv
          by_cases hc : (s.ws v).conn = true ∧ (s.ws v).thread = t
          · rw [if_pos hc] at hv
            cases hv
            refine ⟨?_, hc.2⟩
            have := h.rel v
            cases hp' : (Spec.after s.log).ph v with
            | unborn => rw [hp'] at this; simp [this.2.1] at hc
            | over => rw [hp'] at this; simp [this.2.1] at hc
            | waiting th' k t0 ems dead => rw [hp'] at this; exact this.2.1
          · rw [if_neg hc] at hv; cases hv
      · exact h.legal.snoc (by show (Spec.after s.log).alive = true; rw [h.alive]; exact hal)
    · exact h
  | await th k =>
    dsimp only
    have hnb := h.born s.nw (Nat.le_refl _)
    have hok1 : (Spec.after s.log).ok (.awaited s.nw th k s.now) := by simp [Spec.ok, hnb]
    have hno : ∀ t p, p ∈ s.posted t → p.1 ≠ s.nw := by
      intro t p hp e
      have := (h.post t p hp).1
      have h2 := h.rel p.1
      rw [e, hnb] at h2; rw [e] at this; have h3 := h2.1; rw [this] at h3; cases h3
    have hmine : ∀ t, mine s.nw (s.posted t) = [] := by
      intro t; simp only [mine, List.filterMap_eq_nil_iff]
      intro p hp; simp [hno t p hp]
    split
    · rename_i hal
      -- object already gone: continues at once
      have key : ∀ (u : State α), u.log = s.log ++ [.awaited s.nw th k s.now] ++ [.resumed s.nw th none s.now false] →
          u.alive = s.alive → u.nw = s.nw + 1 → (∀ w', w' ≠ s.nw → u.ws w' = s.ws w') → (u.ws s.nw).waiting = false →
          (u.ws s.nw).conn = false → (u.ws s.nw).timer = none → (u.ws s.nw).timerConn = false →
          (u.posted = fun t => (s.posted t).filter (fun p => p.1 != s.nw)) → Inv u := by
        intro u h1 h2 h3 h4 h5 h6 h7 h7' h8
        refine ⟨?_, ?_, ?_, ?_, ?_⟩
        · rw [h1, Spec.after_snoc, Spec.after_snoc, h2]; exact h.alive
        · intro w
          rw [h1, Spec.after_snoc, Spec.after_snoc]
          by_cases e : w = s.nw
          · subst e; simp [Spec.next, Rel, h5, h6, h7, h7']
          · simp only [Spec.next, upd_other _ _ e]
            rw [h4 w e]
            have := h.rel w
            cases hp : (Spec.after s.log).ph w with
            | unborn => rw [hp] at this; exact this
            | over => rw [hp] at this; exact this
            | waiting th' k' t0 ems dead =>
              rw [hp] at this
              obtain ⟨a1, a2, a3, a4, a5, a6, a7, a8, a9⟩ := this
              refine ⟨a1, a2, a3, a4, a5, a6, ?_, by rw [h2]; exact a8, by rw [h2]; exact a9⟩
              rw [h8]; simp only; rw [mine_filter_ne _ _ _ e, ← a7]
        · intro w hw
          rw [h1, Spec.after_snoc, Spec.after_snoc]
          have : w ≠ s.nw := by rw [h3] at hw; omega
          simp [Spec.next, upd_other _ _ this]
          exact h.born w (by rw [h3] at hw; omega)
        · intro t p hp
          rw [h8] at hp; simp at hp
          rw [h4 p.1 hp.2]; exact h.post t p hp.1
        · rw [h1]
          refine (h.legal.snoc hok1).snoc ?_
          have hal' : (Spec.after s.log).alive = false := by rw [h.alive]; exact hal
          show Spec.ok (Spec.after (s.log ++ [.awaited s.nw th k s.now])) _
          rw [Spec.after_snoc]
          simp [Spec.next, Spec.ok, hal']
      unfold State.resume
      simp only [upd_same]
      split
      · exact key _ (by simp [State.emit]) rfl rfl (fun w' e => by simp [State.emit, upd_other _ _ e]) (by simp [State.emit]) (by simp [State.emit]) (by simp [State.emit]) (by simp [State.emit]) rfl
      · exact key _ (by simp [State.emit]) rfl rfl (fun w' e => by simp [State.emit, upd_other _ _ e]) (by simp [State.emit]) (by simp [State.emit]) (by simp [State.emit]) (by simp [State.emit]) rfl
    · rename_i hal
      have hal' : s.alive = true := by simpa using hal
      refine ⟨?_, ?_, ?_, ?_, ?_⟩
      · show (Spec.after (s.log ++ [_])).alive = _
        rw [Spec.after_snoc]; exact h.alive
      · intro w
        show Rel _ _ w ((Spec.after (s.log ++ [Ev.awaited s.nw th k s.now])).ph w)
        rw [Spec.after_snoc]
        by_cases e : w = s.nw
        · subst e
          simp only [Spec.next, upd_same, h.alive, hal']
          simp only [State.emit, upd_same]
          refine ⟨rfl, ?_, ?_, ?_, ?_, ?_, hmine th, ?_, ?_, ?_, ?_⟩
          · split <;> rfl
          · split <;> rfl
          · split <;> rfl
          · split <;> rfl
          · split <;> rfl
          · rfl
          · simp only [hal']
            split
            · rename_i hx; simp [hx]
            · rename_i hx; simp [hx]
          · intro d; split
            · rename_i hx; simp only [Option.some.injEq]; intro e; exact ⟨hx, e.symm⟩
            · intro e; cases e
          · intro _; split
            · intro _; rfl
            · rename_i hx; intro e; simp [hx] at e
        · simp only [Spec.next, State.emit, upd_other _ _ e]
          have := h.rel w
          cases hp : (Spec.after s.log).ph w with
          | unborn => rw [hp] at this; exact this
          | over => rw [hp] at this; exact this
          | waiting th' k' t0 ems dead => rw [hp] at this; exact this
      · intro w hw
        have hw : s.nw + 1 ≤ w := hw
        show (Spec.after (s.log ++ [Ev.awaited s.nw th k s.now])).ph w = _
        rw [Spec.after_snoc]
        simp only [Spec.next]
        rw [upd_other _ _ (by omega)]; exact h.born w (by omega)
      · intro t p hp
        have := hno t p hp
        simp only [State.emit]
        rw [upd_other _ _ this]
        exact h.post t p hp
      · exact h.legal.snoc hok1
  | process th =>
    dsimp only
    split
    · exact h
    · rename_i w a rest hp
      have hm := h.post th (w, a) (by rw [hp]; simp)
      have hrel := h.rel w
      obtain ⟨th', k, t0, ems, hph⟩ := hrel.of_waiting hm.1
      rw [hph] at hrel
      obtain ⟨a1, a2, a3, a4, a5, a6, a7, a8, a9, a10, a11⟩ := hrel
      have hth : th' = th := by rw [← a3]; exact hm.2
      subst hth
      unfold State.slot
      have hw1 : (s.ws w).waiting = true := a2
      dsimp only
      rw [if_pos hw1]
      refine inv_resume (r := some a) h rfl rfl rfl ?_ ?_ ?_ ?_
      · intro w' e; simp [upd_other _ _ e]
      · simp
      · intro t
        by_cases e : t = th'
        · subst e; exact ⟨[(w, a)], by simp [hp], by simp⟩
        · exact ⟨[], by simp [upd_other _ _ e], by simp⟩
      · simp only [Spec.ok, hph]
        refine ⟨trivial, trivial, trivial, ?_⟩
        rw [← a7, hp]; simp [mine]
  | fire w =>
    dsimp only
    split
    · exact h
    · rename_i d hd
      split
      · rename_i hle
        have hrel := h.rel w
        have hw : (s.ws w).waiting = true := by
          cases hp : (Spec.after s.log).ph w with
          | unborn => rw [hp] at hrel; have := hrel.2.2.1; rw [hd] at this; cases this
          | over => rw [hp] at hrel; have := hrel.2.2.1; rw [hd] at this; cases this
          | waiting th k t0 ems dead => rw [hp] at hrel; exact hrel.2.1
        obtain ⟨th', k, t0, ems, hph⟩ := hrel.of_waiting hw
        rw [hph] at hrel
        obtain ⟨a1, a2, a3, a4, a5, a6, a7, a8, a9, a10, a11⟩ := hrel
        obtain ⟨b1, b2⟩ := a10 d hd
        split
        · rename_i htc
          refine inv_resume (r := none) h rfl rfl rfl ?_ ?_ ?_ ?_
          · intro w' e; simp [upd_other _ _ e]
          · simp [a5]
          · intro t; exact ⟨[], by simp, by simp⟩
          · simp only [Spec.ok, hph]
            refine ⟨a3, trivial, .inr ?_⟩
            rw [b1] at a6
            have : k.ms > -1 := by simpa using a6.symm
            refine ⟨(by rw [h.alive]; rw [htc] at a9; cases hal : s.alive with | true => rfl | false => (rw [hal] at a9; cases a9)), by omega, ?_⟩
            have hk : ((k.ms.toNat : Nat) : Int) = k.ms := Int.toNat_of_nonneg (by omega)
            omega
        · rename_i htc
          have hdead : s.alive = false := by
            cases hal : s.alive with
            | false => rfl
            | true => rw [hal, b1] at a9; simp [a9] at htc
          refine ⟨h.alive, ?_, h.born, ?_, h.legal⟩
          · intro w'
            by_cases e : w' = w
            · subst e
              show Rel _ _ _ ((Spec.after s.log).ph w')
              rw [hph]
              simp only [upd_same]
              exact ⟨a1, a2, a3, a4, a5, a6, a7, a8, a9, by simp, by simp [hdead]⟩
            · show Rel _ _ _ ((Spec.after s.log).ph w')
              simp only [upd_other _ _ e]
              have := h.rel w'
              cases hp : (Spec.after s.log).ph w' with
              | unborn => rw [hp] at this; exact this
              | over => rw [hp] at this; exact this
              | waiting th' k' t0 ems dead => rw [hp] at this; exact this
          · intro t p hp
            simp only [upd_apply]
            split
            · rename_i e; have := h.post t p hp; rw [e] at this; exact this
            · exact h.post t p hp
      · exact h

theorem inv_exec (ops : List (Op α)) : Inv (exec ops) := by
  induction ops using snocInd with
  | nil => exact inv_init
  | snoc l a ih => rw [exec_snoc]; exact inv_step ih a

end QCoro.Sig
