import Verif.Signal.Props
/-! # C63: several coroutines waiting for the same signal of the same object are continued in the order of their awaits -/
set_option linter.unusedSimpArgs false
namespace QCoro.Sig
variable {α : Type}

/-- The waits begun, in order. -/
def begun (l : List (Ev α)) : List Nat := l.filterMap (fun | .awaited w _ _ _ => some w | _ => none)

theorem begun_append (a b : List (Ev α)) : begun (a ++ b) = begun a ++ begun b := by simp [begun]

/-- Proof invariant: in every queue the events of earlier waits come first. -/
structure Ord (s : State α) : Prop where
  q : ∀ t l1 w2 b l2 w1, s.posted t = l1 ++ (w2, b) :: l2 → w1 < w2 → (s.ws w1).waiting = true → (s.ws w1).thread = t → ∃ a, (w1, a) ∈ l1
  ids : begun s.log = List.range s.nw
  lg : ∀ pre w2 th b now ie post w1 k t, s.log = pre ++ .resumed w2 th (some b) now ie :: post → w1 < w2 → Ev.awaited w1 th k t ∈ pre → resumes w1 pre = 1

theorem split_filter {p : Nat × α → Bool} {l : List (Nat × α)} {l1 l2 : List (Nat × α)} {x : Nat × α} (h : l.filter p = l1 ++ x :: l2) :
    ∃ m1 m2, l = m1 ++ x :: m2 ∧ m1.filter p = l1 := by
  induction l generalizing l1 with
  | nil => simp at h
  | cons y l ih =>
    by_cases hy : p y = true
    · rw [List.filter_cons_of_pos hy] at h
      cases l1 with
      | nil => simp at h; exact ⟨[], l, by rw [h.1]; rfl, rfl⟩
      | cons z l1 =>
        simp at h
        obtain ⟨m1, m2, e1, e2⟩ := ih h.2
        exact ⟨y :: m1, m2, by rw [e1]; rfl, by rw [List.filter_cons_of_pos hy, e2, h.1]⟩
    · rw [List.filter_cons_of_neg hy] at h
      obtain ⟨m1, m2, e1, e2⟩ := ih h
      exact ⟨y :: m1, m2, by rw [e1]; rfl, by rw [List.filter_cons_of_neg hy, e2]⟩

/-- The order survives the continuation of one wait. -/
theorem q_resume {s s' : State α} {w : Nat} (h : Ord s) (hw : (s'.ws w).waiting = false) (hws : ∀ v, v ≠ w → s'.ws v = s.ws v)
    (hp : ∀ t, ∃ m, s.posted t = m ++ (s'.posted t) ∧ ∀ p ∈ m, p.1 = w) :
    ∀ t l1 w2 b l2 w1, (s'.posted t).filter (fun p => p.1 != w) = l1 ++ (w2, b) :: l2 → w1 < w2 → (s'.ws w1).waiting = true →
      (s'.ws w1).thread = t → ∃ a, (w1, a) ∈ l1 := by
  intro t l1 w2 b l2 w1 e hlt hwt hth
  have hne : w1 ≠ w := by rintro rfl; rw [hw] at hwt; cases hwt
  obtain ⟨m1, m2, e1, e2⟩ := split_filter e
  obtain ⟨m, e3, hm⟩ := hp t
  rw [hws w1 hne] at hwt hth
  obtain ⟨a, ha⟩ := h.q t (m ++ m1) w2 b m2 w1 (by rw [e3, e1]; simp) hlt hwt hth
  refine ⟨a, ?_⟩
  rcases List.mem_append.mp ha with ha | ha
  · exact absurd (hm _ ha) hne
  · rw [← e2, List.mem_filter]; exact ⟨ha, by simpa using hne⟩

theorem lg_snoc {s : State α} (h : Ord s) (e : Ev α) (he : ∀ w th b now ie, e = .resumed w th (some b) now ie →
      ∀ w1 k t, w1 < w → Ev.awaited w1 th k t ∈ s.log → resumes w1 s.log = 1) :
    ∀ pre w2 th b now ie post w1 k t, s.log ++ [e] = pre ++ .resumed w2 th (some b) now ie :: post → w1 < w2 → Ev.awaited w1 th k t ∈ pre → resumes w1 pre = 1 := by
  intro pre w2 th b now ie post w1 k t hl hlt hm
  rcases List.eq_nil_or_concat post with rfl | ⟨post', x, rfl⟩
  · have := List.append_inj' hl rfl
    obtain ⟨h1, h2⟩ := this
    simp at h2
    subst h1
    exact he _ _ _ _ _ h2 _ _ _ hlt hm
  · have h2 : s.log ++ [e] = (pre ++ Ev.resumed w2 th (some b) now ie :: post') ++ [x] := by rw [hl]; simp
    have := (List.append_inj' h2 rfl).1
    exact h.lg _ _ _ _ _ _ _ _ _ _ this hlt hm

/-- A wait that was begun and has not been continued is waiting. -/
theorem waiting_of {s : State α} (h : Inv s) {w th : Nat} {k : Kind} {t : Nat} (hm : Ev.awaited w th k t ∈ s.log) (hr : resumes w s.log ≠ 1) :
    (s.ws w).waiting = true ∧ (s.ws w).thread = th := by
  obtain ⟨pre, mid, e⟩ := List.append_of_mem hm
  have hl := h.legal
  have hrel := h.rel w
  rw [e] at hl hrel hr
  have hpre : resumes w pre = 0 ∨ resumes w mid ≠ 1 := by
    apply Classical.byContradiction
    intro hc
    have hc1 : resumes w pre ≠ 0 := fun x => hc (.inl x)
    -- a continued wait cannot be begun again
    have hok : Spec.ok (Spec.after pre) (.awaited w th k t) := hl pre _ mid rfl
    have hover : ∀ l : List (Ev α), resumes w l ≠ 0 → Legal Spec.next Spec.ok {} l → (Spec.after l).ph w = .over := by
      intro l
      induction l using snocInd with
      | nil => intro h; exact absurd rfl h
      | snoc l x ih =>
        intro hn hleg
        rw [Spec.after_snoc]
        have hokx : Spec.ok (Spec.after l) x := hleg l x [] rfl
        by_cases h0 : resumes w l = 0
        · rw [resumes_append, h0] at hn
          cases x with
          | resumed w' th' r n b =>
            by_cases hw : w = w'
            · subst hw; simp [Spec.next]
            · exact absurd (by simp [resumes_cons, isResume, Ne.symm hw]) hn
          | _ => exact absurd (by simp [resumes_cons, isResume]) hn
        · have hov := ih h0 hleg.prefix
          cases x with
          | awaited w' th' k' t' =>
            have : w ≠ w' := by rintro rfl; simp [Spec.ok, hov] at hokx
            simp [Spec.next, upd_other _ _ this, hov]
          | emitted th' a => simp [Spec.next, hov, Ph.saw]
          | destroyed => simp [Spec.next, hov]
          | resumed w' th' r n b =>
            have : w ≠ w' := by rintro rfl; simp [Spec.ok, hov] at hokx
            simp [Spec.next, upd_other _ _ this, hov]
    have := hover pre hc1 hl.prefix
    simp [Spec.ok, this] at hok
  rcases track w th k t pre mid hl with ⟨_, e0, hph⟩ | ⟨e1, hph⟩
  · rw [hph] at hrel
    exact ⟨hrel.2.1, hrel.2.2.1⟩
  · rcases hpre with hp | hp
    · exact absurd (by rw [resumes_append, resumes_cons, hp, e1]; simp [isResume]) hr
    · exact absurd e1 hp

theorem news_before (f : Nat → Option (Nat × α)) (hf : ∀ w p, f w = some p → p.1 = w) (n : Nat) {l1 l2 : List (Nat × α)} {w1 w2 : Nat} {a b : α}
    (e : (List.range n).filterMap f = l1 ++ (w2, b) :: l2) (hn : w1 < n) (h1 : f w1 = some (w1, a)) (hlt : w1 < w2) : (w1, a) ∈ l1 := by
  have hsorted : ((List.range n).filterMap f).Pairwise (fun x y => x.1 < y.1) := by
    rw [List.pairwise_filterMap]
    refine List.Pairwise.imp ?_ List.pairwise_lt_range
    intro x y hxy p hp q hq
    rw [hf _ _ hp, hf _ _ hq]; exact hxy
  have hmem : (w1, a) ∈ (List.range n).filterMap f := by
    rw [List.mem_filterMap]
    exact ⟨w1, List.mem_range.2 hn, h1⟩
  rw [e] at hsorted hmem
  rcases List.mem_append.mp hmem with hm | hm
  · exact hm
  · exfalso
    rw [List.pairwise_append] at hsorted
    rcases List.mem_cons.mp hm with hm | hm
    · cases hm; omega
    · have := List.rel_of_pairwise_cons hsorted.2.1 hm
      simp at this; omega

theorem ord_resume {s0 s : State α} (h : Ord s0) (w th : Nat) (hlog : s.log = s0.log) (hnw : s.nw = s0.nw)
    (hws : ∀ v, v ≠ w → s.ws v = s0.ws v) (hp : ∀ t, ∃ m, s0.posted t = m ++ s.posted t ∧ ∀ p ∈ m, p.1 = w)
    (hok : (s.ws w).result ≠ none → ∀ w1 k t, w1 < w → Ev.awaited w1 th k t ∈ s0.log → resumes w1 s0.log = 1) : Ord (s.resume w th false) := by
  have key : ∀ t : State α, t.log = s0.log ++ [.resumed w th (s.ws w).result s.now false] → t.nw = s0.nw →
      (∀ v, v ≠ w → t.ws v = s0.ws v) → (t.ws w).waiting = false → (t.posted = fun t => (s.posted t).filter (fun p => p.1 != w)) → Ord t := by
    intro t e1 e2 e3 e4 e5
    refine ⟨?_, ?_, ?_⟩
    · rw [e5]
      have hs : ∀ v, v ≠ w → ({ t with posted := s.posted } : State α).ws v = s0.ws v := e3
      exact q_resume (s' := { t with posted := s.posted }) h e4 hs hp
    · rw [e1, e2, begun_append, h.ids]; simp [begun]
    · rw [e1]
      refine lg_snoc h _ ?_
      intro w' th' b now ie hh w1 k t' hlt hm
      cases hh' : (s.ws w).result with
      | none => rw [hh'] at hh; cases hh
      | some b' =>
        rw [hh'] at hh
        cases hh
        exact hok (by simp [hh']) w1 k t' hlt hm
  unfold State.resume
  dsimp only
  split
  · refine key _ ?_ hnw ?_ ?_ rfl
    · show s.log ++ _ = _; rw [hlog]
    · intro v hv; show upd s.ws w _ v = _; rw [upd_other _ _ hv]; exact hws v hv
    · show (upd s.ws w _ w).waiting = _; simp
  · refine key _ ?_ hnw ?_ ?_ rfl
    · show s.log ++ _ = _; rw [hlog]
    · intro v hv; show upd s.ws w _ v = _; rw [upd_other _ _ hv]; exact hws v hv
    · show (upd s.ws w _ w).waiting = _; simp

theorem ord_step {s : State α} (hi : Inv s) (h : Ord s) (op : Op α) : Ord (step s op) := by
  unfold step
  by_cases hub : s.ub.isSome = true
  · rw [if_pos hub]; exact h
  rw [if_neg hub]
  cases op with
  | time d => exact ⟨h.q, h.ids, h.lg⟩
  | destroy =>
    dsimp only
    split
    · refine ⟨h.q, ?_, ?_⟩
      · show begun (s.log ++ [.destroyed]) = _; rw [begun_append, h.ids]; simp [begun, State.emit]
      · exact lg_snoc h _ (by intro w th b now ie hh; cases hh)
    · exact h
  | emit th a =>
    dsimp only
    split
    · rename_i hal
      rw [emit_fold th a _ List.nodup_range]
      refine ⟨?_, ?_, ?_⟩
      · intro t l1 w2 b l2 w1 e hlt hwt hth
        replace e : s.posted t ++ (List.range s.nw).filterMap (fun w => if (s.ws w).conn = true ∧ (s.ws w).thread = t then some (w, a) else none) = l1 ++ (w2, b) :: l2 := e
        replace hwt : (s.ws w1).waiting = true := hwt
        replace hth : (s.ws w1).thread = t := hth
        have hc1 : (s.ws w1).conn = true := by
          have hrel := hi.rel w1
          obtain ⟨th', k, t0, ems, hp⟩ := hrel.of_waiting hwt
          rw [hp] at hrel
          rw [hrel.2.2.2.2.2.2.2.1]; exact hal
        have hn1 : w1 < s.nw := by
          apply Classical.byContradiction
          intro hge
          have hb := hi.born w1 (by omega)
          have hrel := hi.rel w1
          rw [hb] at hrel
          rw [hrel.1] at hwt; cases hwt
        rcases List.append_eq_append_iff.1 e with ⟨m, e1, e2⟩ | ⟨m, e1, e2⟩
        · -- w2's event is one of the new ones: so is one of w1, before it
          refine ⟨a, ?_⟩
          rw [e1]
          apply List.mem_append_right
          refine news_before _ ?_ _ e2 hn1 (by rw [if_pos ⟨hc1, hth⟩]) hlt
          intro w p hp
          split at hp <;> simp at hp
          rw [← hp]
        · cases m with
          | nil =>
            exfalso
            simp only [List.nil_append] at e2
            have := news_before (l1 := []) _ ?_ _ e2.symm hn1 (by rw [if_pos ⟨hc1, hth⟩]) hlt
            · simp at this
            · intro w p hp
              split at hp <;> simp at hp
              rw [← hp]
          | cons y m =>
            simp at e2
            obtain ⟨rfl, e2⟩ := e2
            exact h.q t l1 w2 b m w1 e1 hlt hwt hth
      · show begun (s.log ++ [.emitted th a]) = _; rw [begun_append, h.ids]; simp [begun, State.emit]
      · exact lg_snoc h _ (by intro w th b now ie hh; cases hh)
    · exact h
  | await th k =>
    dsimp only
    have hids : begun (s.log ++ [.awaited s.nw th k s.now]) = List.range (s.nw + 1) := by
      rw [begun_append, h.ids, List.range_succ]; rfl
    have hlg : ∀ pre w2 th' b now ie post w1 k' t, s.log ++ [.awaited s.nw th k s.now] = pre ++ .resumed w2 th' (some b) now ie :: post → w1 < w2 →
        Ev.awaited w1 th' k' t ∈ pre → resumes w1 pre = 1 := lg_snoc h _ (by intro w th b now ie hh; cases hh)
    have hq : ∀ x : Wait α, ∀ t l1 w2 b l2 w1, s.posted t = l1 ++ (w2, b) :: l2 → w1 < w2 → (upd s.ws s.nw x w1).waiting = true →
        (upd s.ws s.nw x w1).thread = t → ∃ a, (w1, a) ∈ l1 := by
      intro x t l1 w2 b l2 w1 e hlt hwt hth
      have hp2 := hi.post t (w2, b) (by rw [e]; simp)
      have hn2 : w2 < s.nw := by
        apply Classical.byContradiction
        intro hge
        have hb := hi.born w2 (by omega)
        have hrel := hi.rel w2
        rw [hb] at hrel
        rw [hrel.1] at hp2; cases hp2.1
      rw [upd_other _ _ (by omega)] at hwt hth
      exact h.q t l1 w2 b l2 w1 e hlt hwt hth
    split
    · have hmid : Ord ({ s with nw := s.nw + 1, log := s.log ++ [.awaited s.nw th k s.now], ws := upd s.ws s.nw { kind := k, thread := th, waiting := true, hasTimer := decide (k.ms > -1) } } : State α) :=
        ⟨hq _, hids, hlg⟩
      exact ord_resume hmid s.nw th rfl rfl (fun _ _ => rfl) (fun t => ⟨[], rfl, by simp⟩) (by simp [State.emit])
    · exact ⟨hq _, hids, hlg⟩
  | process th =>
    dsimp only
    split
    · exact h
    · rename_i w a rest hp
      have hw := hi.post th (w, a) (by rw [hp]; simp)
      unfold State.slot
      dsimp only
      rw [if_pos hw.1]
      refine ord_resume h w th rfl rfl (fun v hv => by simp [upd_other _ _ hv]) ?_ ?_
      · intro t
        by_cases ht : t = th
        · subst ht; exact ⟨[(w, a)], by simp [hp], by simp⟩
        · exact ⟨[], by simp [upd_other _ _ ht], by simp⟩
      · intro _ w1 k t hlt hm
        apply Classical.byContradiction
        intro hr
        obtain ⟨h1, h2⟩ := waiting_of hi hm hr
        obtain ⟨a', ha'⟩ := h.q th [] w a rest w1 (by simpa using hp) hlt h1 h2
        simp at ha'
  | fire w =>
    dsimp only
    split
    · exact h
    · rename_i d hd
      split
      · have hq : ∀ x : Wait α, x.waiting = (s.ws w).waiting → x.thread = (s.ws w).thread → Ord ({ s with ws := upd s.ws w x } : State α) := by
          intro x hx1 hx2
          refine ⟨?_, h.ids, h.lg⟩
          intro t l1 w2 b l2 w1 e hlt hwt hth
          refine h.q t l1 w2 b l2 w1 e hlt ?_ ?_
          · by_cases hv : w1 = w
            · subst hv; simpa [hx1] using hwt
            · simpa [upd_other _ _ hv] using hwt
          · by_cases hv : w1 = w
            · subst hv; simpa [hx2] using hth
            · simpa [upd_other _ _ hv] using hth
        split
        · refine ord_resume h w _ rfl rfl (fun v hv => by simp [upd_other _ _ hv]) (fun t => ⟨[], rfl, by simp⟩) ?_
          intro hr
          exfalso
          apply hr
          have hrel := hi.rel w
          cases hph : (Spec.after s.log).ph w with
          | waiting th' k t0 ems dead => rw [hph] at hrel; simpa using hrel.2.2.2.2.1
          | unborn => rw [hph] at hrel; rw [hrel.2.2.1] at hd; cases hd
          | over => rw [hph] at hrel; rw [hrel.2.2.1] at hd; cases hd
        · exact hq _ rfl rfl
      · exact h

theorem ord_exec (ops : List (Op α)) : Ord (exec ops) := by
  induction ops using snocInd with
  | nil => exact ⟨by intro t l1 w2 b l2 w1 e; exact absurd e (by simp [exec]), rfl, by intro pre w2 th b now ie post w1 k t e; exact absurd e (by simp [exec])⟩
  | snoc l a ih => rw [exec_snoc]; exact ord_step (inv_exec l) ih a

/-- C63. No overtaking: of two coroutines of one thread that wait for the same signal, when the one that began later is continued by
an emission, the one that began earlier has been continued already (exactly once). -/
theorem C63_no_overtaking (ops : List (Op α)) (a b c d : List (Ev α)) (w1 w2 th : Nat) (k1 k2 : Kind) (t1 t2 : Nat) (x : α) (now : Nat) (ie : Bool)
    (h : (exec ops).log = a ++ .awaited w1 th k1 t1 :: (b ++ .awaited w2 th k2 t2 :: (c ++ .resumed w2 th (some x) now ie :: d))) :
    resumes w1 (b ++ .awaited w2 th k2 t2 :: c) = 1 := by
  have ho := ord_exec ops
  have hid := ho.ids
  have hlt : w1 < w2 := by
    have hs : (begun (exec ops).log).Pairwise (· < ·) := by rw [hid]; exact List.pairwise_lt_range
    rw [h] at hs
    simp only [begun_append, begun, List.filterMap_append, List.filterMap_cons] at hs
    rw [List.pairwise_append] at hs
    exact List.rel_of_pairwise_cons hs.2.1 (by simp)
  have hpre : resumes w1 (a ++ .awaited w1 th k1 t1 :: (b ++ .awaited w2 th k2 t2 :: c)) = 1 :=
    ho.lg _ w2 th x now ie d w1 k1 t1 (by rw [h]; simp) hlt (by simp)
  have hz : resumes w1 a = 0 := by
    apply Classical.byContradiction
    intro hne
    obtain ⟨e, he, hre⟩ : ∃ e ∈ a, isResume w1 e = true := by
      apply Classical.byContradiction
      intro hh
      apply hne
      unfold resumes
      rw [List.countP_eq_zero]
      intro e he hre
      exact hh ⟨e, he, hre⟩
    obtain ⟨a1, a2, rfl⟩ := List.append_of_mem he
    cases e with
    | resumed w' th' r n ie' =>
      have : w' = w1 := by simpa [isResume] using hre
      subst this
      obtain ⟨k, t, hm⟩ := C30_begun ops a1 _ w' th' n r ie' (by rw [h]; simp; rfl)
      -- begun twice: impossible
      have hs : (begun (exec ops).log).Pairwise (· < ·) := by rw [hid]; exact List.pairwise_lt_range
      rw [h] at hs
      rw [begun_append, List.pairwise_append] at hs
      have := hs.2.2 w' (by simp [begun]; exact .inl ⟨_, hm, rfl⟩) w' (by simp [begun])
      omega
    | _ => simp [isResume] at hre
  rw [resumes_append, resumes_cons, hz] at hpre
  simpa [isResume] using hpre

/-- C63. One emission reaches everybody: once the event loop of its thread has delivered what is posted, each coroutine that began
to wait before the emission has been continued, once (with the arguments given by `C27_first_emission`). -/
theorem C63_broadcast (ops : List (Op α)) (hu : (exec ops).ub = none) (hal : (exec ops).alive = true) (e : Nat) (x : α)
    (w th : Nat) (k : Kind) (t : Nat) (h : .awaited w th k t ∈ (exec ops).log) (n : Nat)
    (hn : ((exec (ops ++ [.emit e x])).posted th).length ≤ n) :
    resumes w (exec (ops ++ [.emit e x] ++ List.replicate n (.process th))).log = 1 := by
  obtain ⟨pre, mid, h⟩ := List.append_of_mem h
  have hstep : (exec (ops ++ [.emit e x])).log = (exec ops).log ++ [.emitted e x] ∧ (exec (ops ++ [.emit e x])).ub = none := by
    rw [exec_snoc]
    unfold step
    rw [if_neg (by simp [hu])]
    dsimp only
    rw [if_pos hal, emit_fold e x _ List.nodup_range]
    exact ⟨rfl, hu⟩
  have hlog : (exec (ops ++ [.emit e x])).log = pre ++ .awaited w th k t :: (mid ++ [.emitted e x]) := by rw [hstep.1, h]; simp
  exact C27_delivered _ hstep.2 pre (mid ++ [.emitted e x]) w th k t hlog (by simp [emissions_append]) n hn

/-- C63. Between threads there is no order, and a timeout may overtake: both reachable. -/
theorem C63_other_thread_overtakes : ∃ ops : List (Op Nat),
    (exec ops).log = [.awaited 0 1 .plain 0, .awaited 1 2 .plain 0, .emitted 0 7, .resumed 1 2 (some 7) 0 false] :=
  ⟨[.await 1 .plain, .await 2 .plain, .emit 0 7, .process 2], by decide⟩
theorem C63_timeout_overtakes : ∃ ops : List (Op Nat),
    (exec ops).log = [.awaited 0 1 .plain 0, .awaited 1 1 (.timed 5) 0, .resumed 1 1 none 5 false] :=
  ⟨[.await 1 .plain, .await 1 (.timed 5), .time 5, .fire 1], by decide⟩

/-- Three coroutines, two emissions: the first two get the first one, in the order of their awaits, then the third the second one. -/
example : (exec ([.await 0 .plain, .await 0 (.timed 100), .emit 3 7, .await 0 .plain, .emit 4 8, .process 0, .process 0, .process 0] : List (Op Nat))).log =
    [.awaited 0 0 .plain 0, .awaited 1 0 (.timed 100) 0, .emitted 3 7, .awaited 2 0 .plain 0, .emitted 4 8, .resumed 0 0 (some 7) 0 false,
     .resumed 1 0 (some 7) 0 false, .resumed 2 0 (some 8) 0 false] := by decide
end QCoro.Sig
