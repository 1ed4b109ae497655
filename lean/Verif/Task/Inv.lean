import Verif.Task.Eff

/-! Phase and wait-frame invariants through whole steps. -/
namespace QCoro.Task
variable {σ V E : Type}

structure Inv2 (s : State σ V E) : Prop where
  i1 : Inv1 s
  p : PInv s
  w : WInv s

theorem inv2_init : Inv2 (init : State σ V E) := by
  refine ⟨⟨core_init, Or.inl (by simp [noAsg, init])⟩, ?_, ?_⟩
  · intro c code h; simp [init] at h
  · constructor <;> simp [init, waits, SWF, CallerLt]

theorem WPre.set {s s' : State σ V E} {st} (h : WPre s st) (hw : s'.wctx = s.wctx) (hnw : s'.nw = s.nw)
    (hnc : s'.nc = s.nc) (hc : ∀ c, c ∈ bodies st → (s'.coro c).code = (s.coro c).code) : WPre s' st := by
  constructor
  · exact h.sorted
  · rw [hw, hnw]; exact h.fresh
  · rw [hw]; exact h.live
  · exact h.swf.mono (by omega) (fun w _ _ => by rw [hw]; exact ⟨rfl, rfl⟩) hc
  · intro w c; rw [hw, hnc]; exact h.callerLt w c

/-- Replacing the top waitFor frame by another one of the same call. -/
theorem WInv.swap {s s' : State σ V E} (h : WInv s) {f f' gs st} (hs : s.stack = f :: st) (hf : wOf f' = wOf f)
    (hs' : s'.stack = gs ++ f' :: st) (hg : NW gs)
    (hw : s'.wctx = s.wctx) (hnw : s'.nw = s.nw) (hnc : s'.nc = s.nc)
    (hc : ∀ c, (s'.coro c).code = (s.coro c).code) : WInv s' := by
  have hww : waits s'.stack = waits s.stack := by
    rw [hs', waits_NW hg, hs]; simp only [waits, List.filterMap_cons, hf]
  constructor
  · rw [hww]; exact h.sorted
  · rw [hw, hnw]; exact h.fresh
  · rw [hww, hw]; exact h.live
  · rw [hs', SWF_NW hg]
    have h1 := h.swf
    rw [hs] at h1
    refine ⟨?_, h1.2.mono (by omega) (fun w _ _ => by rw [hw]; exact ⟨rfl, rfl⟩) (fun c _ => hc c)⟩
    intro w hwf
    obtain ⟨a1, a2, a3⟩ := h1.1 w (by rw [← hf]; exact hwf)
    rw [hw, hnw]
    exact ⟨a1, a2, fun c hcl => ⟨(a3 c hcl).1, by rw [hc]; exact (a3 c hcl).2⟩⟩
  · intro w c; rw [hw, hnc]; exact h.callerLt w c

theorem waitReturn_W (P : Prog σ V E) {s : State σ V E} (h : WInv s) {f st w} (hs : s.stack = f :: st)
    (hf : wOf f = some w) (hu : (waitReturn P s w).ub = none) : WInv (waitReturn P s w) := by
  have key : ∀ i e, WInv ((((s.setW w { s.wctx w with alive := false }).pop).reply (s.wctx w).caller i).emit e) := by
    intro i e
    have hnd := h.sorted
    rw [hs] at hnd
    simp only [waits, List.filterMap_cons, hf, List.pairwise_cons] at hnd
    have h1 := h.swf
    rw [hs] at h1
    have hlt := (h1.1 w hf).1
    constructor
    · simp only [State.emit, State.pop, State.setW, reply_stack, hs, List.tail_cons]; exact hnd.2
    · intro w' hw'
      simp [State.emit, State.pop, State.setW] at hw' ⊢
      rw [if_neg (by omega)]; exact h.fresh w' hw'
    · intro w' hw'
      simp only [State.emit, State.pop, State.setW, reply_wctx] at hw'
      have hm : w' ∈ waits (f :: st) := by
        rw [← hs]
        apply h.live
        split at hw' <;> simp_all
      simp only [waits, List.filterMap_cons, hf, List.mem_cons] at hm
      have hne : w' ≠ w := by rintro rfl; simp at hw'
      rcases hm with hm | hm
      · exact absurd hm hne
      · simp only [State.emit, State.pop, State.setW, reply_stack, hs, List.tail_cons]; exact hm
    · have : ((((s.setW w { s.wctx w with alive := false }).pop).reply (s.wctx w).caller i).emit e).stack = st := by
        simp [State.emit, State.pop, State.setW, hs]
      rw [this]
      refine h1.2.mono ?_ ?_ ?_
      · simp [State.emit, State.pop, State.setW]
      · intro w' hw' _
        have : w' ≠ w := by rintro rfl; exact absurd (hnd.1 _ hw') (Nat.lt_irrefl _)
        simp [State.emit, State.pop, State.setW, this]
      · intro c _
        cases (s.wctx w).caller with
        | none => rfl
        | some c' =>
          simp only [State.emit, State.pop, State.setW, State.reply, State.setCoro]
          split <;> simp_all
    · intro w' c' hc'
      have hc'' : (s.wctx w').caller = some c' := by
        simp only [State.emit, State.pop, State.setW, reply_wctx] at hc'
        split at hc' <;> simp_all
      have := h.callerLt w' c' hc''
      simpa [State.emit, State.pop, State.setW] using this
  unfold waitReturn at hu ⊢
  dsimp only at hu ⊢
  split
  · exact key _ _
  · split
    · exact key _ _
    · simp_all [State.fail]

theorem waitReturn_P (P : Prog σ V E) {s : State σ V E} (hp : PInv s) (hc : Core s) (h : WInv s) {f st w} (hs : s.stack = f :: st)
    (hf : wOf f = some w) (hu : (waitReturn P s w).ub = none) : PInv (waitReturn P s w) := by
  have key : ∀ i e, PInv ((((s.setW w { s.wctx w with alive := false }).pop).reply (s.wctx w).caller i).emit e) := by
    intro i e
    have h1 := h.swf
    rw [hs] at h1
    obtain ⟨_, _, h2⟩ := h1.1 w hf
    refine PEx.reply' (s := s) (s' := (s.setW w { s.wctx w with alive := false }).pop) (who := (s.wctx w).caller)
      (R := fun _ => True) (fun c _ => hp c) ?_ ?_ trivial rfl
    · intro c hcl code hcode i _
      exact ((h2 c hcl).2 code hcode).compat i
    · intro c hcl
      obtain ⟨r, hr⟩ := (h2 c hcl).1
      refine (hc.bodyR c).1 ?_
      rw [hs, hr]
      cases f <;> simp
  unfold waitReturn at hu ⊢
  dsimp only at hu ⊢
  split
  · exact key _ _
  · split
    · exact key _ _
    · simp_all [State.fail]

theorem run_PW (P : Prog σ V E) {s : State σ V E} (h : Inv2 s) (hu : s.ub = none) (hu' : (run P s).ub = none) :
    PInv (run P s) ∧ WInv (run P s) := by
  obtain ⟨⟨hc, hA⟩, hp, hw⟩ := h
  unfold run at hu' ⊢
  split
  · exact ⟨hp, hw⟩
  · rename_i c st hst
    have hlt := hc.bodyLt (c := c) (by simp [hst])
    have hr := (hc.bodyR c).1 (by simp [hst])
    have hf := hc.notFreed hlt (by simp [hr])
    have hcs := hc.codeS c hlt
    rw [hst] at hu'
    dsimp only at hu'
    rw [if_neg (by simp [hf])] at hu' ⊢
    cases hcode : (s.coro c).code with
    | none => simp [hcode] at hcs
    | some code =>
      rw [hcode] at hu'
      dsimp only at hu' ⊢
      obtain ⟨g1, g2, g3⟩ := codeNext_spec P (s.coro c).owned code (s.coro c).inp ((hp c code hcode).1 (Or.inl hr))
      generalize codeNext P (s.coro c).owned code (s.coro c).inp = r at *
      have h1 : Core (s.setCoro c { s.coro c with code := some r.1 }) :=
        hc.setCoroEq hlt ⟨rfl, rfl, rfl, rfl, rfl, rfl, rfl, rfl, by simp [hcode]⟩
      have hnotin : c ∉ bodies st := by
        have := hc.bodyN; rw [hst] at this; simp at this; exact this.1
      have hac : Actor (s.setCoro c { s.coro c with code := some r.1 }) (some c) := ⟨st, hst⟩
      have hbel : below (s.setCoro c { s.coro c with code := some r.1 }) (some c) = st := by
        simp [below, State.setCoro, hst]
      constructor
      · refine doAct_P P r.2 ?_ ?_ ?_ ?_ hu'
        · intro i hi
          have hne : i ≠ c := by rintro rfl; exact hi rfl
          simp only [State.setCoro, hne, if_false]; exact hp i
        · intro c' hc' code' hcode' i hi
          cases hc'
          simp [State.setCoro] at hcode'
          subst hcode'
          exact g2 i hi
        · intro c' hc'
          cases hc'
          simp [State.setCoro, hr]
        · intro o b hob code' hcode'
          simp [State.setCoro] at hcode'
          subst hcode'
          exact g3 o b hob
      · refine doAct_W P hac h1 r.2 ?_ ?_ ?_ hu'
        · rw [hbel]
          refine (hw.pre (fs := [.body c]) hst (by simp [NW, wOf])).set rfl rfl rfl ?_
          intro c' hc'
          have hne : c' ≠ c := by rintro rfl; exact hnotin hc'
          simp [State.setCoro, hne]
        · rw [hbel]
          intro c' hc'
          exact hc.bodyLt (c := c') (by simp [hst, hc'])
        · intro o b hob code' hcode'
          simp [State.setCoro] at hcode'
          subst hcode'
          exact g3 o b hob
  · rename_i c st hst
    rw [hst] at hu'
    dsimp only at hu'
    have hcc := (hc.finR c).1 (by simp [hst])
    have hpre := hw.pre (fs := [.final c]) hst (by simp [NW, wOf])
    split at hu'
    · simp [State.fail] at hu'
    rename_i hx
    rw [if_neg hx]
    split
    · rename_i a rest hfin
      have ha : (s.coro a).status = .waitTask c := by
        rw [← hc.pendR c a]; simp [pend, hcc, hfin]
      have hne : a ≠ c := by rintro rfl; simp [hcc] at ha
      simp only [hfin, State.setCoro, hne, if_false, if_true] at hu' ⊢
      split at hu'
      · simp [State.fail] at hu'
      rename_i hx2
      rw [if_neg hx2]
      simp only [ha, if_true] at hu' ⊢
      cases hres : (s.coro c).result with
      | none => rw [hres] at hu'; simp [State.fail] at hu'
      | some r =>
        constructor
        · intro i
          simp only [State.emit, State.push]
          by_cases hia : i = a
          · subst hia
            simp only [if_true]
            intro code hcode
            simp at hcode
            exact ⟨fun _ => (hp i code hcode).2 (Or.inl ⟨c, ha⟩) r, by simp⟩
          · simp only [hia, if_false]
            by_cases hic : i = c
            · subst hic
              simp only [if_true]
              exact hp i
            · simp only [hic, if_false]; exact hp i
        · refine hpre.post (fs := [.body a, .final c]) ?_ (by simp [NW, wOf]) rfl rfl (Nat.le_refl _) ?_
          · simp [State.emit, State.push, hst]
          · intro i _
            simp only [State.emit, State.push]
            by_cases hia : i = a
            · subst hia; simp
            · by_cases hic : i = c
              · subst hic; simp [hia]
              · simp [hia, hic]
    · rename_i hfin
      constructor
      · refine PInv.sci hp fun i => ?_
        obtain ⟨a1, a2, a3⟩ := deref_sci ((s.setCoro c { s.coro c with selfRef := false }).pop) c i
        have hh : Sci (((s.setCoro c { s.coro c with selfRef := false }).pop).coro i) (s.coro i) := by
          simp only [State.pop, State.setCoro]; split
          · rename_i hi; subst hi; exact ⟨rfl, rfl, rfl⟩
          · exact ⟨rfl, rfl, rfl⟩
        exact ⟨a1.trans hh.1, a2.trans hh.2.1, a3.trans hh.2.2⟩
      · obtain ⟨gs, g1, g2⟩ := shape_app (deref_shape ((s.setCoro c { s.coro c with selfRef := false }).pop) c).1
        have hww := deref_w ((s.setCoro c { s.coro c with selfRef := false }).pop) c
        have hee := eff_deref ((s.setCoro c { s.coro c with selfRef := false }).pop) c
        refine hpre.post (fs := gs) ?_ g2 hww.1 hww.2 hee.nc ?_
        · rw [g1]; simp [State.pop, State.setCoro, hst]
        · intro i hi
          have := hc.bodyLt (c := i) (by simp [hst, hi])
          rw [hee.code i this]
          simp only [State.pop, State.setCoro]; split
          · rename_i hi; subst hi; rfl
          · rfl
  · rename_i os st hst
    rw [hst] at hu'
    dsimp only at hu'
    have hpre := hw.pre (fs := [.drops os]) hst (by simp [NW, wOf])
    split
    · exact ⟨hp, hpre.post (fs := []) (by simp [State.pop, hst]) (by simp [NW]) rfl rfl (Nat.le_refl _) (fun _ _ => rfl)⟩
    · rename_i o os
      dsimp only at hu' ⊢
      split at hu'
      · rename_i hx
        rw [if_pos hx]
        constructor
        · exact PInv.sci (s := s) hp (fun i => dropObj_sci (s.pop.push (.drops os)) o i)
        · obtain ⟨gs, g1, g2⟩ := shape_app (dropObj_shape (s.pop.push (.drops os)) o).1
          have hww := dropObj_w (s.pop.push (.drops os)) o
          have hee := eff_dropObj (s.pop.push (.drops os)) o
          refine hpre.post (fs := gs ++ [.drops os]) ?_ ?_ hww.1 hww.2 hee.nc ?_
          · rw [g1]; simp [State.pop, State.push, hst]
          · intro f hf; simp at hf; rcases hf with hf | rfl
            · exact g2 f hf
            · rfl
          · intro i hi
            exact hee.code i (hc.bodyLt (c := i) (by simp [hst, hi]))
      · simp [State.fail] at hu'
  · rename_i dst src st hst
    rw [hst] at hu'
    dsimp only at hu'
    have hpre := hw.pre (fs := [.assign dst src]) hst (by simp [NW, wOf])
    dsimp only
    split at hu'
    · rename_i hx
      rw [if_pos hx]
      exact ⟨hp, hpre.post (fs := []) (by simp [State.setObj, State.pop, hst]) (by simp [NW]) rfl rfl (Nat.le_refl _) (fun _ _ => rfl)⟩
    · simp [State.fail] at hu'
  · rename_i w tmp st hst
    rw [hst] at hu'
    dsimp only at hu' ⊢
    split at hu'
    · rename_i hx
      rw [if_pos hx]
      constructor
      · exact PInv.sci (s := s) hp (fun i => dropObj_sci (s.pop.push (.waitB w)) tmp i)
      · obtain ⟨gs, g1, g2⟩ := shape_app (dropObj_shape (s.pop.push (.waitB w)) tmp).1
        have hww := dropObj_w (s.pop.push (.waitB w)) tmp
        refine hw.swap hst (f' := .waitB w) rfl (by rw [g1]; simp [State.pop, State.push, hst]) g2 hww.1 hww.2 ?_ ?_
        · unfold dropObj deref
          split
          · rfl
          · split
            · rfl
            · split
              · rfl
              · split <;> rfl
              · rfl
        · intro i
          exact (dropObj_sci (s.pop.push (.waitB w)) tmp i).2.1
    · simp [State.fail] at hu'
  · rename_i w st hst
    rw [hst] at hu'
    dsimp only at hu'
    split
    · rename_i hx
      rw [if_pos hx] at hu'
      exact ⟨waitReturn_P P hp hc hw hst rfl hu', waitReturn_W P hw hst rfl hu'⟩
    · exact ⟨hp, hw.swap hst (f' := .loop w) (gs := []) rfl (by simp [State.pop, State.push, State.emit, hst]) (by simp [NW]) rfl rfl rfl (fun _ => rfl)⟩
  · rename_i w st hst
    rw [hst] at hu'
    dsimp only at hu'
    split
    · rename_i hx
      rw [if_pos hx] at hu'
      exact ⟨waitReturn_P P hp hc hw hst rfl hu', waitReturn_W P hw hst rfl hu'⟩
    · exact ⟨hp, hw⟩

theorem step_PW (P : Prog σ V E) {s : State σ V E} (h : Inv2 s) (op) (hu : s.ub = none) (hu' : (step P s op).ub = none) :
    PInv (step P s op) ∧ WInv (step P s op) := by
  obtain ⟨⟨hc, hA⟩, hp, hw⟩ := id h
  unfold step at hu' ⊢
  rw [if_neg (by simp [hu])] at hu' ⊢
  have hpre := hw.pre (fs := []) (st := s.stack) rfl (by simp [NW])
  cases op with
  | run => exact run_PW P h hu hu'
  | main a =>
    dsimp only at hu' ⊢
    split
    · rename_i hx
      rw [if_pos hx] at hu'
      exact ⟨doUser_P P a (fun c _ => hp c) (by simp [PA]) (by simp [Runs]) (by simp) hu',
        doUser_W P (who := none) trivial hc a hpre (fun c hcb => hc.bodyLt hcb) (by simp) hu'⟩
    · exact ⟨hp, hw⟩
  | fire c r =>
    dsimp only at hu' ⊢
    split
    · rename_i hx
      simp only [Bool.and_eq_true, decide_eq_true_eq] at hx
      constructor
      · intro i
        simp only [State.emit, State.push, State.setCoro]
        split
        · rename_i hi; subst hi
          intro code hcode
          exact ⟨fun _ => (hp i code hcode).2 (Or.inr hx.2) r, by simp⟩
        · exact hp i
      · refine hpre.post (fs := [.body c]) (by simp [State.emit, State.push, State.setCoro]) (by simp [NW, wOf]) rfl rfl (Nat.le_refl _) ?_
        intro i _
        simp only [State.emit, State.push, State.setCoro]
        split
        · rename_i hi; subst hi; rfl
        · rfl
    · exact ⟨hp, hw⟩
  | exitLoop w =>
    dsimp only at hu' ⊢
    split
    · rename_i hx
      simp only [Bool.and_eq_true] at hx
      refine ⟨hp, ?_⟩
      have hm : w ∈ waits s.stack := by
        simp only [waits, List.mem_filterMap]
        exact ⟨.loop w, by simpa using hx.2, rfl⟩
      have hlt : w < s.nw := by
        refine Nat.lt_of_not_le fun hle => ?_
        have hfr := hw.fresh w hle
        have : SWF s s.stack → w ∈ waits s.stack → w < s.nw := by
          generalize s.stack = st
          induction st with
          | nil => simp [waits]
          | cons f rest ih =>
            rintro ⟨g1, g2⟩ hw'
            simp only [waits, List.filterMap_cons] at hw'
            split at hw'
            · exact ih g2 hw'
            · rename_i w' hf
              simp at hw'
              rcases hw' with rfl | hw'
              · exact (g1 w hf).1
              · exact ih g2 (by simpa [waits] using hw')
        have := this hw.swf hm
        omega
      constructor
      · exact hw.sorted
      · intro w' hw'
        have hw'' : s.nw ≤ w' := hw'
        simp only [State.emit, State.setW]
        rw [if_neg (by omega)]; exact hw.fresh w' hw''
      · intro w' hw'
        simp only [State.emit, State.setW] at hw'
        apply hw.live
        split at hw' <;> simp_all
      · refine hw.swf.mono (Nat.le_refl _) ?_ (fun _ _ => rfl)
        intro w' _ _
        simp only [State.emit, State.setW]
        split <;> simp_all
      · intro w' c' hc'
        simp only [State.emit, State.setW] at hc'
        apply hw.callerLt w'
        split at hc' <;> simp_all
    · exact ⟨hp, hw⟩

end QCoro.Task
