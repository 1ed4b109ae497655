import Verif.Task.ThenMore

/-! Exclusive awaiting: nobody but the continuation can await the coroutine its private Task holds, hence the value it
gets is the very value the coroutine returned. -/
namespace QCoro.Task
variable {σ V E : Type}

/-- Nobody but `t` ever awaited `d`. -/
def Only (t d : Nat) (log : List (Ev V E)) : Prop := ∀ a, (.awaitReg a d ∈ log ∨ ∃ r, .gotReady a d r ∈ log) → a = t

theorem only_step (P : Prog σ V E) {s : State σ V E} {t d} (hO : Only t d s.log) (hP : Priv d (.param t) s ∨ Priv d (.tmp t) s) (hI : Inv s) (op) :
    Only t d (step P s op).log := by
  cases step_cases P s op with
  | quiet evs h hq =>
    intro a ha
    refine hO a ?_
    rw [h] at ha
    rcases ha with ha | ⟨r, ha⟩
    · rcases List.mem_append.1 ha with h1 | h1
      · exact .inl h1
      · exact absurd (hq _ h1) (by simp [evQ])
    · rcases List.mem_append.1 ha with h1 | h1
      · exact .inr ⟨r, h1⟩
      · exact absurd (hq _ h1) (by simp [evQ])
  | woken c st a rest r hop hst hf hfin ha hac h =>
    rw [h]
    intro x hx
    refine hO x ?_
    simpa [wokenState, State.push, State.emit, State.setCoro] using hx
  | await c st code o priv hop hst hf hc ha h =>
    have hkey : ∀ d', (s.obj o).handle = some d' → (actState P s c code).usable priv o = true → d' = d → c = t := by
      rintro d' hd' hu rfl
      cases priv with
      | false =>
        have h1 : (s.obj o).owner = .user := usable_user hu
        rcases hP with hP | hP <;> (have := hP.2 o hd'; rw [h1] at this; simp at this)
      | true =>
        simp only [if_true] at ha
        obtain ⟨_, k2, k3, _⟩ := codeNext_H P (s.coro c).owned code (s.coro c).inp
        rcases k3 o ha with hm | ⟨x, cfg, hx⟩
        · rcases hI.h.own c o hf hm with h1 | ⟨h1, _⟩
          · rcases hP with hP | hP <;> (have := hP.2 o hd'; rw [h1] at this; simp at this)
          · rcases hP with hP | hP <;> (have := hP.2 o hd'; rw [h1] at this; simp at this)
            exact this
        · obtain ⟨e1, e2⟩ := k2 x cfg o hx
          have h1 := (hI.h.called c (by simp) x cfg o (by rw [hc, e1]) e2).2.1
          rcases hP with hP | hP <;> (have := hP.2 o hd'; rw [h1] at this; simp at this)
          exact this
    rw [h]
    have hl : (actState P s c code).log = s.log := rfl
    rcases awaitObj_cases P (actState P s c code) c o priv with ⟨u, h⟩ | ⟨_, _, _, h⟩ | ⟨d', hu, hd, _, ⟨r, _, _, h⟩ | ⟨hnd, hk, h⟩ | ⟨hi, _, h⟩⟩ <;> rw [h]
    · exact hO
    · rw [hungState_log, hl]; intro x hx; exact hO x (by simpa using hx)
    · rw [readyState_log, hl]; intro x hx
      rcases hx with hx | ⟨r', hx⟩
      · exact hO x (.inl (by simpa using hx))
      · rcases List.mem_append.1 hx with h1 | h1
        · exact hO x (.inr ⟨r', h1⟩)
        · simp at h1; rw [h1.1]; exact hkey d' hd hu h1.2.1.symm
    · rw [regState_log, hl]; intro x hx
      rcases hx with hx | ⟨r', hx⟩
      · rcases List.mem_append.1 hx with h1 | h1
        · exact hO x (.inl h1)
        · simp at h1; rw [h1.1]; exact hkey d' hd hu h1.2.symm
      · exact hO x (.inr ⟨r', by simpa using hx⟩)
    · rw [lazyState_log, hl]; intro x hx
      rcases hx with hx | ⟨r', hx⟩
      · rcases List.mem_append.1 hx with h1 | h1
        · exact hO x (.inl h1)
        · simp at h1; rw [h1.1]; exact hkey d' hd hu h1.2.symm
      · exact hO x (.inr ⟨r', by simpa using hx⟩)

theorem filterMap_congr' {α β : Type} {f g : α → Option β} : ∀ {l : List α}, (∀ x ∈ l, f x = g x) → l.filterMap f = l.filterMap g
  | [], _ => rfl
  | a :: l, h => by
    rw [List.filterMap_cons, List.filterMap_cons, h a (by simp), filterMap_congr' (l := l) fun x hx => h x (by simp [hx])]

def gotOf (d : Nat) : HEv V E → Option (Res V E) | .got d' r => if d' = d then some r else none | _ => none

/-- If nobody but `t` awaited `d`, what `d` delivered is what `t` got. -/
theorem only_gots {P : Prog σ V E} {t d} {log : List (Ev V E)} (hok : Chk (legal P) log) (h : Only t d log) :
    gots d log = (hist t log).filterMap (gotOf d) := by
  have hw : ∀ a r, .gotWoken a d r ∈ log → a = t := by
    intro a r hm
    obtain ⟨pre, post, hl, hleg⟩ := hok.mem hm
    obtain ⟨_, _, _, ⟨rest, hr⟩, _⟩ := hleg
    have : a ∈ regs d pre := by rw [hr]; simp
    simp only [regs, List.mem_filterMap] at this
    obtain ⟨e, he, h1⟩ := this
    cases e <;> simp at h1
    obtain ⟨rfl, rfl⟩ := h1
    exact h _ (.inl (by rw [hl]; simp [he]))
  have hr : ∀ a r, .gotReady a d r ∈ log → a = t := fun a r hm => h a (.inr ⟨r, hm⟩)
  clear hok h
  unfold gots hist
  rw [List.filterMap_filterMap]
  refine filterMap_congr' ?_
  intro e he
  cases e <;> simp only [hev] <;> try rfl
  all_goals try (split <;> rfl)
  · rename_i a d' r
    by_cases hd : d' = d
    · subst hd; rw [hr a r he]; simp [gotOf]
    · by_cases ha : a = t <;> simp [ha, hd, gotOf]
  · rename_i a d' r
    by_cases hd : d' = d
    · subst hd; rw [hw a r he]; simp [gotOf]
    · by_cases ha : a = t <;> simp [ha, hd, gotOf]

theorem only_exec {P : Prog σ V E} {ops ops' t d} (hP : Priv d (.param t) (exec P ops) ∨ Priv d (.tmp t) (exec P ops)) (hO : Only t d (exec P ops).log)
    (hu : (exec P (ops ++ ops')).ub = none) : Only t d (exec P (ops ++ ops')).log := by
  induction ops' using QCoro.snocInd with
  | nil => simpa using hO
  | snoc l x ih =>
    have hul : (exec P (ops ++ l)).ub = none := exec_ub_prefix _ [x] (by simpa using hu)
    rw [← List.append_assoc, exec_snoc]
    refine only_step P (ih hul) ?_ (exec_inv P _ hul) x
    rcases hP with h | h
    · exact .inl (priv_exec h (by simp) hul)
    · exact .inr (priv_exec h (by simp) hul)

/-- C15. The very value: `std::move(task).then(cb)` on a task nobody has awaited calls `cb` with exactly the value the
task returned; nobody can get in between. -/
theorem C15_exact_value {P : Prog σ V E} {ops op ops' t cfg k d} (hm : Makes P (exec P ops) op t cfg true k (some d))
    (hfresh : regs d (exec P ops).log = [] ∧ gots d (exec P ops).log = [])
    (hu : (exec P (ops ++ op :: ops')).ub = none) {v} (hc : .cb t v ∈ (exec P (ops ++ op :: ops')).log) :
    .finished d (.val v) ∈ (exec P (ops ++ op :: ops')).log := by
  have hsplit : ops ++ op :: ops' = (ops ++ [op]) ++ ops' := by simp
  have hu1 : (exec P (ops ++ [op])).ub = none := exec_ub_prefix _ _ (by rw [← hsplit]; exact hu)
  have hp1 := makes_priv (ops' := []) hm hu1
  have hO1 : Only t d (exec P (ops ++ [op])).log := by
    rw [exec_snoc]
    generalize hh : (some d : Option Nat) = h at hm
    cases hm with
    | thenR who o cfg hp =>
      obtain ⟨s1, hs, hl, _⟩ := hp.step
      obtain ⟨evs, h1, h2⟩ := (eff2_doUser P s1 who (.thenR o cfg) (by simp)).log
      rw [hs, h1, hl]
      intro a ha
      exfalso
      have hr : ∀ a, .awaitReg a d ∉ (exec P ops).log := by
        intro a hm
        have : a ∈ regs d (exec P ops).log := by simp only [regs, List.mem_filterMap]; exact ⟨_, hm, by simp⟩
        rw [hfresh.1] at this; simp at this
      have hg : ∀ a r, .gotReady a d r ∉ (exec P ops).log := by
        intro a r hm
        have : r ∈ gots d (exec P ops).log := by simp only [gots, List.mem_filterMap]; exact ⟨_, hm, by simp⟩
        rw [hfresh.2] at this; simp at this
      rcases ha with ha | ⟨r, ha⟩ <;> rcases List.mem_append.1 ha with h | h
      · exact hr a h
      · exact h2 _ h
      · exact hg a r h
      · exact h2 _ h
  have hO : Only t d (exec P (ops ++ op :: ops')).log := by
    rw [hsplit]; exact only_exec (.inl hp1) hO1 (by rw [← hsplit]; exact hu)
  obtain ⟨pre, post, hl⟩ := List.append_of_mem hc
  obtain ⟨d', v0, hd, hf, n, hn, hv⟩ := C15_callback_value hm (.inl rfl) hu pre post v hl
  cases hd
  have hok := (exec_linv P (ops ++ op :: ops')).ok
  have hS := C15_story hm hu
  rw [hl] at hok hO hS
  have hOp : Only t d pre := fun a ha => hO a (by
    rcases ha with h | ⟨r, h⟩
    · exact .inl (by simp [h])
    · exact .inr ⟨r, by simp [h]⟩)
  rw [only_gots hok.prefix hOp] at hn
  rw [show pre ++ .cb t v :: post = (pre ++ [.cb t v]) ++ post by simp, hist_append, hist_snoc] at hS
  simp only [hev, if_true, Option.toList, List.append_assoc, List.singleton_append] at hS
  obtain ⟨d', hD, hg⟩ := cb_pos hS
  have : n = 0 := by
    rcases hg with hg | hg <;> rw [hg] at hn
    · by_cases hx : d' = d
      · simp [List.filterMap_cons, gotOf, hx] at hn; exact hn
      · simp [List.filterMap_cons, gotOf, hx] at hn
    · by_cases hx : d' = d
      · simp [List.filterMap_cons, gotOf, hx] at hn; exact hn
      · simp [List.filterMap_cons, gotOf, hx] at hn
  subst this
  simp [readN] at hv; subst hv
  rw [hl]; simp [hf]

/-! The coroutine a coroutine callback creates is private to the continuation. -/

theorem cbTask_new {P : Prog σ V E} {s : State σ V E} (hI : Inv s) (hL : LInv P s) (op) {t d} (hn : .cbTask t d ∉ s.log)
    (h : .cbTask t d ∈ (step P s op).log) : Priv d (.tmp t) (step P s op) ∧ Only t d (step P s op).log := by
  cases lib_cases P s op with
  | quiet hq =>
    obtain ⟨evs, hl, he⟩ := hq
    rw [hl] at h
    rcases List.mem_append.1 h with h | h
    · exact absurd h hn
    · have := (he _ h).1; simp [evL] at this
  | enter w st hop hst hx hs => rw [hs] at h; simp [State.emit, State.push, State.pop] at h; exact absurd h hn
  | exit w hop hl hm hs => rw [hs] at h; simp [State.emit, State.setW] at h; exact absurd h hn
  | ret w st hop hst hs =>
    rw [hs] at h
    have : .cbTask t d ∈ s.log := by
      revert h
      unfold waitReturn; dsimp only; split
      · simp [State.emit, reply_log, State.pop, State.setW]
      · split
        · simp [State.emit, reply_log, State.pop, State.setW]
        · exact id
    exact absurd this hn
  | act c st code hop hst hf hc ha hs =>
    rw [hs] at h ⊢
    have hl : (actState P s c code).log = s.log := rfl
    have hnc : (actState P s c code).nc = s.nc := rfl
    have hco := hI.i2.i1.core
    cases hact : (codeNext P (s.coro c).owned code (s.coro c).inp).2 with
    | markCb v => rw [hact] at h; simp [doAct, State.emit, hl] at h; exact absurd h hn
    | markErr e => rw [hact] at h; simp [doAct, State.emit, hl] at h; exact absurd h hn
    | ctxAlive q' v =>
      rw [hact] at h; simp only [doAct] at h
      split at h <;> (simp [State.emit, hl] at h; exact absurd h hn)
    | callTmp k code' v =>
      rw [hact] at h
      obtain ⟨evs, h1, h2⟩ := callTmp_log P (actState P s c code) c k code' v
      have hcd : t = c ∧ d = s.nc := by
        rw [h1, hl, hnc] at h
        simp only [List.mem_append, List.mem_cons] at h
        rcases h with h | h | h
        · exact absurd h hn
        · simpa using h
        · have := (h2 _ h).1; simp [evL] at this
      obtain ⟨rfl, rfl⟩ := hcd
      constructor
      · constructor
        · simp only [doAct, spawn]; cases k <;> simp [State.push, State.emit, State.setObj, State.setCoro, hnc]
        · intro o ho
          have hob : (actState P s t code).obj = s.obj := rfl
          have hno : (actState P s t code).no = s.no := rfl
          have hold : (s.obj o).handle ≠ some s.nc := by intro hh; have := (hco.hOk o _ hh).1; omega
          revert ho
          simp only [doAct, spawn]
          cases k <;> simp only [State.push, State.emit, State.setObj, State.setCoro, hnc, hob, hno] <;> grind
      · rw [h1, hl, hnc]
        have hub : life s.nc s.log = .unborn := by rw [hL.life, hco.corB _ (Nat.le_refl _)]
        have hold : ∀ a, ¬ (.awaitReg a s.nc ∈ s.log ∨ ∃ r, .gotReady a s.nc r ∈ s.log) := by
          rintro a (hx | ⟨r, hx⟩)
          · obtain ⟨pre, post, h3, h4⟩ := hL.ok.mem hx
            have h5 := hL.ok
            rw [h3] at h5
            have := life_unborn_stays_le h5 h4.2.1
            rw [← h3] at this; exact this hub
          · obtain ⟨pre, post, h3, h4⟩ := hL.ok.mem hx
            have h5 := hL.ok
            rw [h3] at h5
            have h6 : life s.nc pre ≠ .unborn := by rw [h4.2.1]; simp
            have := life_unborn_stays_le h5 h6
            rw [← h3] at this; exact this hub
        obtain ⟨evs', h3, h4⟩ := (eff2_spawn P (((actState P s t code).setCoro t { (actState P s t code).coro t with inp := .obj s.no }).emit (.cbTask t s.nc)) k (.user code') [] v (.tmp t) none).log
        have h5 : (doAct P (actState P s t code) t (.callTmp k code' v)).log = _ := h3
        rw [h1] at h5
        simp [State.emit, State.setCoro, hl, hnc] at h5
        subst h5
        intro a ha
        rcases ha with ha | ⟨r, ha⟩
        · rcases List.mem_append.1 ha with h | h
          · exact absurd (.inl h) (hold a)
          · simp at h; exact absurd (h4 _ h) (by simp [evOK])
        · rcases List.mem_append.1 ha with h | h
          · exact absurd (.inr ⟨r, h⟩) (hold a)
          · simp at h; exact absurd (h4 _ h) (by simp [evOK])
    | _ => rw [hact] at ha; simp [actL] at ha

theorem cbTask_private (P : Prog σ V E) (ops) (hu : (exec P ops).ub = none) {t d} (h : .cbTask t d ∈ (exec P ops).log) :
    Priv d (.tmp t) (exec P ops) ∧ Only t d (exec P ops).log := by
  induction ops using snoc_induction with
  | h0 => simp [exec, init] at h
  | h1 l x ih =>
    rw [exec_snoc] at hu h ⊢
    have hul : (exec P l).ub = none := by
      cases h : (exec P l).ub with
      | none => rfl
      | some u => simp [step, h] at hu
    by_cases hm : .cbTask t d ∈ (exec P l).log
    · obtain ⟨h1, h2⟩ := ih hul hm
      exact ⟨priv_step P h1 (by simp) (exec_inv P l hul) hul x hu, only_step P h2 (.inr h1) (exec_inv P l hul) x⟩
    · exact cbTask_new (exec_inv P l hul) (exec_linv P l) x hm h

/-- C15. With a callback that is itself a coroutine, the resulting task completes with exactly what that coroutine
completed with: value or exception. -/
theorem C15_result_coroutine_exact {P : Prog σ V E} {ops op ops' t cfg rv k h} (hm : Makes P (exec P ops) op t cfg rv k h)
    (hsrc : Same P ops op ops' t rv k h) (hu : (exec P (ops ++ op :: ops')).ub = none) (hc : cfg.cbTask.isSome) (hg : cfg.guard = none)
    {d v0 r} (hd : h = some d) (hf : .finished d (.val v0) ∈ (exec P (ops ++ op :: ops')).log)
    (ht : .finished t r ∈ (exec P (ops ++ op :: ops')).log) :
    ∃ v d2, cbs t (exec P (ops ++ op :: ops')).log = [v] ∧ .cbTask t d2 ∈ (exec P (ops ++ op :: ops')).log ∧
      .finished d2 r ∈ (exec P (ops ++ op :: ops')).log := by
  obtain ⟨v, d2, r2, n, h1, h2, h3, h4, h5⟩ := C15_result_coroutine hm hsrc hu hc hg hd hf ht
  refine ⟨v, d2, h1, h2, ?_⟩
  have hok := (exec_linv P (ops ++ op :: ops')).ok
  rw [only_gots hok (cbTask_private P _ hu h2).2] at h4
  have hS := C15_story hm hu
  have hne : d ≠ d2 := by
    obtain ⟨pre, post, hl, hleg⟩ := hok.mem h2
    have hgot : ∃ d' r', some d' = h ∧ HEv.got d' r' ∈ hist t pre := by
      rw [hl, show pre ++ .cbTask t d2 :: post = (pre ++ [.cbTask t d2]) ++ post by simp, hist_append, hist_snoc] at hS
      simp only [hev, if_true, Option.toList, List.append_assoc, List.singleton_append] at hS
      generalize hist t pre = l1 at *
      generalize hist t post = l2 at *
      generalize hx : l1 ++ .cbTask d2 :: l2 = l at hS
      cases hS with
      | idle => simp at hx
      | hung => cases l1 <;> simp at hx
      | waits => cases l1 <;> simp at hx
      | after d' r' p tl hD hp htl =>
        refine ⟨d', r', hD hsrc, ?_⟩
        rcases List.append_eq_append_iff.1 hx with ⟨as, hp', _⟩ | ⟨bs, hl1, _⟩
        · cases as with
          | nil => simp at hp'; subst hp'; rcases hp with rfl | rfl <;> simp
          | cons a as =>
            rename_i hy
            simp at hy
            obtain ⟨rfl, _⟩ := hy
            exfalso
            rcases hp with hp | hp <;> rw [hp] at hp' <;> cases l1 <;> simp at hp'
            rename_i b l1
            cases l1 <;> simp at hp'
        · rw [hl1]; rcases hp with rfl | rfl <;> simp
    obtain ⟨d', r', hdd, hgm⟩ := hgot
    rw [hd] at hdd; cases hdd
    have hokp : Chk (legal P) pre := by rw [hl] at hok; exact hok.prefix
    obtain ⟨p1, e, p2, r0, e1, e2, e3, _⟩ := got_fins hokp hgm
    rintro rfl
    rw [e1] at hokp hleg
    have := life_done_stays hokp e3
    have h9 := hleg.2
    rw [this] at h9; simp at h9
  have hn : n = 0 := by
    have hdd : ∀ d', Src (Same P ops op ops' t rv k h) h (some d') → d' = d := by
      intro d' hD; have := hD hsrc; rw [hd] at this; simpa using this
    have hmem : HEv.cbTask d2 ∈ hist t (exec P (ops ++ op :: ops')).log := by
      simp only [hist, List.mem_filterMap]; exact ⟨_, h2, by simp [hev]⟩
    clear hok
    generalize hist t (exec P (ops ++ op :: ops')).log = l at *
    cases hS with
    | idle => simp at h4
    | hung => simp [gotOf, List.filterMap_cons] at h4
    | waits => simp [gotOf, List.filterMap_cons] at h4
    | after d' r' p tl hD hp htl =>
      have := hdd d' hD; subst this
      have hp0 : p.filterMap (gotOf d2) = [] := by rcases hp with rfl | rfl <;> simp [List.filterMap_cons, gotOf, hne]
      have hmt : HEv.cbTask d2 ∈ tl := by
        rcases List.mem_append.1 hmem with hx | hx
        · rcases hp with rfl | rfl <;> simp at hx
        · exact hx
      rw [List.filterMap_append, hp0, List.nil_append] at h4
      cases htl <;> simp at hmt
      case task => simp [gotOf, List.filterMap_cons] at h4
      case taskReg => simp [gotOf, List.filterMap_cons] at h4
      case taskGot d3 r3 p2 hc' hgot =>
        rcases hgot with rfl | rfl <;> simp [gotOf, List.filterMap_cons] at h4 hmt <;> subst hmt <;> simp at h4 <;> exact h4
      case taskFin d3 r3 p2 hc' hgot =>
        rcases hgot with rfl | rfl <;> simp [gotOf, List.filterMap_cons] at h4 hmt <;> subst hmt <;> simp at h4 <;> exact h4
  subst hn
  rw [h5]; exact h3

end QCoro.Task
