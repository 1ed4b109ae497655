import Verif.Task.ThenProps
import Verif.Task.Release
import Verif.Task.LibEv

/-! Properties C17 (rvalue `then` keeps the task) and C18 (`connect` and its context object). -/
namespace QCoro.Task
variable {σ V E : Type}

/-- C02, C17. Unique ownership: no two Task objects (user variables, by-value parameters, library temporaries) ever hold
the same coroutine. -/
theorem C02_unique_owner (P : Prog σ V E) (ops) (hu : (exec P ops).ub = none) {o o' c : Nat}
    (h : ((exec P ops).obj o).handle = some c) (h' : ((exec P ops).obj o').handle = some c) : o = o' :=
  (exec_UQ P ops hu o' c h').2.2 o h

/-- C02. A coroutine whose Task is gone is destroyed as soon as it completed: with an empty native stack, a completed
coroutine exists exactly as long as the one Task that holds it. -/
theorem C02_idle_alive_iff_held (P : Prog σ V E) (ops) (hu : (exec P ops).ub = none) (hq : (exec P ops).stack = []) (c k)
    (hb : .spawned c k ∈ (exec P ops).log) (hd : life c (exec P ops).log = .done) :
    .destroyed c ∉ (exec P ops).log ↔ ∃ o, ((exec P ops).obj o).handle = some c ∧ ∀ o', ((exec P ops).obj o').handle = some c → o' = o := by
  have := C02_freed_iff P ops hu c k hb
  rw [hq] at this
  simp only [hd, List.not_mem_nil, not_false_eq_true, true_and, ne_eq] at this
  rw [this]
  constructor
  · intro h
    have h1 : ∃ o, ((exec P ops).obj o).handle = some c := Classical.byContradiction fun hn => h fun o ho => hn ⟨o, ho⟩
    obtain ⟨o, ho⟩ := h1
    exact ⟨o, ho, fun o' ho' => C02_unique_owner P ops hu ho' ho⟩
  · rintro ⟨o, ho, _⟩ hn; exact hn o ho

/-- C17. `std::move(task).then(…)`: the task's coroutine is not destroyed before the continuation's own frame is. -/
theorem C17_kept {P : Prog σ V E} {ops op ops' t cfg k d} (hm : Makes P (exec P ops) op t cfg true k (some d))
    (hu : (exec P (ops ++ op :: ops')).ub = none) (hd : .destroyed d ∈ (exec P (ops ++ op :: ops')).log) :
    .destroyed t ∈ (exec P (ops ++ op :: ops')).log := by
  obtain ⟨oo, hT⟩ := makes_exec hm hu
  have hco := (exec_inv P _ hu).i2.i1.core
  have hL := exec_linv P (ops ++ op :: ops')
  rw [hL.ds] at hd ⊢
  cases hf : ((exec P (ops ++ op :: ops')).coro t).freed with
  | true => rfl
  | false =>
    have h1 := (hT.par rfl).2.2 hf
    rw [(hco.hOk oo d h1).2.1] at hd; simp at hd

/-- C17. … and that frame is not destroyed before the continuation has completed; it then got the task's outcome, so the
task had completed and nothing of it was still to be delivered. -/
theorem C17_kept_until_done {P : Prog σ V E} {ops op ops' t cfg k d} (hm : Makes P (exec P ops) op t cfg true k (some d))
    (hu : (exec P (ops ++ op :: ops')).ub = none) (hd : .destroyed d ∈ (exec P (ops ++ op :: ops')).log) :
    life t (exec P (ops ++ op :: ops')).log = .done ∧ life d (exec P (ops ++ op :: ops')).log = .done ∧
    ∃ r, HEv.got d r ∈ hist t (exec P (ops ++ op :: ops')).log := by
  have hdt := C17_kept hm hu hd
  obtain ⟨oo, hT⟩ := makes_exec hm hu
  have hI := exec_inv P _ hu
  have hL := exec_linv P (ops ++ op :: ops')
  have hdone : ∀ c, .destroyed c ∈ (exec P (ops ++ op :: ops')).log → life c (exec P (ops ++ op :: ops')).log = .done := by
    intro c hc
    rw [hL.life]
    have hf := (hL.ds c).1 hc
    refine hI.i2.i1.core.selfD c ?_ (hI.i2.i1.core.frS c hf)
    apply Nat.lt_of_not_le; intro hge; rw [hI.i2.i1.core.corB c hge] at hf; simp at hf
  refine ⟨hdone t hdt, hdone d hd, ?_⟩
  obtain ⟨ph, hcode, hat, _⟩ := hT.at'
  have h1 := hdone t hdt
  rw [hL.life] at h1
  rcases hat with ⟨_, d', r, p, tl, hD, hp, _, _, hl⟩ | hat
  · have : some d' = some d := hD (.inl rfl)
    cases this
    exact ⟨r, by rw [hl]; rcases hp with rfl | rfl <;> simp⟩
  · rw [h1] at hat; exfalso; cases ph <;> simp [AtPh] at hat

/-- C17. Whoever drops whatever: as long as the continuation has not completed, the task's coroutine exists. -/
theorem C17_not_destroyed_early {P : Prog σ V E} {ops op ops' t cfg k d} (hm : Makes P (exec P ops) op t cfg true k (some d))
    (hu : (exec P (ops ++ op :: ops')).ub = none) (hl : life t (exec P (ops ++ op :: ops')).log ≠ .done) :
    .destroyed d ∉ (exec P (ops ++ op :: ops')).log := fun hd => hl (C17_kept_until_done hm hu hd).1

/-- C17. Release: once the continuation's frame is destroyed and control is back in the event loop, the task it was
holding is destroyed too. -/
theorem C17_released {P : Prog σ V E} {ops op ops' t cfg k d} (hm : Makes P (exec P ops) op t cfg true k (some d))
    (hu : (exec P (ops ++ op :: ops')).ub = none) (hq : (exec P (ops ++ op :: ops')).stack = [])
    (ht : .destroyed t ∈ (exec P (ops ++ op :: ops')).log) :
    (∀ o, ((exec P (ops ++ op :: ops')).obj o).owner = .param t → ((exec P (ops ++ op :: ops')).obj o).alive = false) := by
  have hH := exec_HL P _ hu
  have hL := exec_linv P (ops ++ op :: ops')
  have hco := (exec_inv P _ hu).i2.i1.core
  intro o ho
  cases hal : ((exec P (ops ++ op :: ops')).obj o).alive with
  | false => rfl
  | true =>
    have := hH o (hco.aliveLt hal) hal
    rw [ho] at this
    simp only [hq, (hL.ds t).1 ht] at this
    simp at this

/-- Every Task object that holds `d` is the parameter of continuation `t`, or `t`'s frame is gone. -/
def Priv (d : Nat) (own : Owner) (s : State σ V E) : Prop := d < s.nc ∧ ∀ o, (s.obj o).handle = some d → (s.obj o).owner = own

theorem priv_step (P : Prog σ V E) {s : State σ V E} {d own} (h : Priv d own s) (how : own ≠ .user) (hI : Inv s) (hu : s.ub = none) (op)
    (hu' : (step P s op).ub = none) : Priv d own (step P s op) := by
  have hR := rel_step P hI hu op hu'
  have hI' : Inv (step P s op) := by
    rcases step_inv P hI hu op with ⟨_, h⟩ | ⟨u, h, _⟩
    · exact h
    · rw [hu'] at h; simp at h
  refine ⟨by have := hR.nc; have := h.1; omega, ?_⟩
  intro o ho
  have holt : o < (step P s op).no := by
    apply Nat.lt_of_not_le; intro hge
    rw [hI'.i2.i1.core.objB o hge] at ho; simp at ho
  rcases hR.hs o d holt ho with ⟨h1, h2⟩ | h1 | ⟨o', h1, h2, h3⟩
  · rw [hR.owner o h1]; exact h.2 o h2
  · have := h.1; omega
  · have := h.2 o' h3; rw [h2] at this; exact absurd this.symm how

theorem priv_exec {P : Prog σ V E} {ops ops' d own} (h : Priv d own (exec P ops)) (how : own ≠ .user) (hu : (exec P (ops ++ ops')).ub = none) :
    Priv d own (exec P (ops ++ ops')) := by
  induction ops' using QCoro.snocInd with
  | nil => simpa using h
  | snoc l x ih =>
    have hul : (exec P (ops ++ l)).ub = none := exec_ub_prefix _ [x] (by simpa using hu)
    rw [← List.append_assoc, exec_snoc] at hu ⊢
    exact priv_step P (ih hul) how (exec_inv P _ hul) hul x hu

/-- The parameter of a continuation made by the rvalue overload is the only Task that holds the coroutine, ever. -/
theorem makes_priv {P : Prog σ V E} {ops op ops' t cfg k d} (hm : Makes P (exec P ops) op t cfg true k (some d))
    (hu : (exec P (ops ++ op :: ops')).ub = none) : Priv d (.param t) (exec P (ops ++ op :: ops')) := by
  have hsplit : ops ++ op :: ops' = (ops ++ [op]) ++ ops' := by simp
  have hu1 : (exec P (ops ++ [op])).ub = none := exec_ub_prefix _ _ (by rw [← hsplit]; exact hu)
  rw [hsplit] at hu ⊢
  refine priv_exec ?_ (by simp) hu
  obtain ⟨oo, hT⟩ := makes_exec (ops' := []) hm hu1
  have hco := (exec_inv P _ hu1).i2.i1.core
  have hfr : ((exec P (ops ++ [op])).coro t).freed = false := by
    cases hf : ((exec P (ops ++ [op])).coro t).freed with
    | false => rfl
    | true =>
      have h1 : ((exec P (ops ++ [op])).coro t).status = .done := hco.selfD t hT.lt (hco.frS t hf)
      obtain ⟨_, _, _, _, _, h⟩ := makes_TI True (exec_inv P ops (exec_ub_prefix _ _ hu1)) (exec_linv P ops) hm (by rw [← exec_snoc]; exact hu1)
      rw [← exec_snoc] at h; exact absurd h1 h
  have hh := (hT.par rfl).2.2 hfr
  refine ⟨(hco.hOk oo d hh).1, ?_⟩
  intro o ho
  have := C02_unique_owner P _ hu1 ho hh
  rw [this]; exact (hT.par rfl).2.1

/-- C17. Release: once the continuation's frame is destroyed and control is back in the event loop, the task's coroutine
is destroyed too. -/
theorem C17_released_coroutine {P : Prog σ V E} {ops op ops' t cfg k d} (hm : Makes P (exec P ops) op t cfg true k (some d))
    (hu : (exec P (ops ++ op :: ops')).ub = none) (hq : (exec P (ops ++ op :: ops')).stack = [])
    (ht : .destroyed t ∈ (exec P (ops ++ op :: ops')).log) : .destroyed d ∈ (exec P (ops ++ op :: ops')).log := by
  have hpr := makes_priv hm hu
  have hrel := C17_released hm hu hq ht
  have hL := exec_linv P (ops ++ op :: ops')
  have hco := (exec_inv P _ hu).i2.i1.core
  obtain ⟨oo, hT⟩ := makes_exec hm hu
  refine (C02_freed_iff P _ hu d _ ((hL.kd d _).2 ⟨hpr.1, rfl⟩)).2 ⟨?_, by rw [hq]; simp, ?_⟩
  · have h1 : ((exec P (ops ++ op :: ops')).coro t).status = .done := hco.selfD t hT.lt (hco.frS t ((hL.ds t).1 ht))
    obtain ⟨ph, hcode, hat, _⟩ := hT.at'
    rcases hat with ⟨_, d', r, p, tl, hD, hp, _, _, hl⟩ | hat
    · have : some d' = some d := hD (.inl rfl)
      cases this
      obtain ⟨p1, e, p2, r1, h2, h3, h4, h5, h6⟩ := got_fins hL.ok (t := t) (d := d) (r := r) (by rw [hl]; rcases hp with rfl | rfl <;> simp)
      have hm1 : .finished d r1 ∈ (exec P (ops ++ op :: ops')).log := by
        rw [h2]; simp [mem_fins.1 (show r1 ∈ fins d p1 by rw [h5]; simp)]
      have h1 := fins_of_mem P _ hm1
      have h2 := hL.rs d
      rw [hL.life]
      refine (hco.resD d).1 ?_
      cases hr : ((exec P (ops ++ op :: ops')).coro d).result with
      | none => rw [hr] at h2; rw [h2.1] at h1; simp at h1
      | some x => rfl
    · rw [h1] at hat; exfalso; cases ph <;> simp [AtPh] at hat
  · intro o ho
    have h1 := hpr.2 o ho
    have h2 := hrel o h1
    rw [hco.deadH o h2] at ho; simp at ho

/-! ### C18 -/

/-- Continuation `t` calls its callback only while context object `q` exists, and skips it only if `q` is gone. -/
def okG (t q : Nat) (pre : List (Ev V E)) : Ev V E → Prop
  | .cb a _ => a = t → .ctxDel q ∉ pre
  | .guardDead a => a = t → .ctxDel q ∈ pre
  | _ => True

theorem callTmp_log (P : Prog σ V E) (s : State σ V E) (c k code v) : ∃ evs, (doAct P s c (.callTmp k code v)).log = s.log ++ .cbTask c s.nc :: evs ∧
    ∀ e ∈ evs, evL e = false ∧ evW e = false := by
  obtain ⟨e, h, h2⟩ := (eff2_spawn P ((s.setCoro c { s.coro c with inp := .obj s.no }).emit (.cbTask c s.nc)) k (.user code) [] v (.tmp c) none).log
  refine ⟨e, ?_, fun e he => (h2 e he).l⟩
  have h3 : (doAct P s c (.callTmp k code v)).log = _ := h
  rw [h3]; simp [State.emit, State.setCoro]

theorem okG_step (P : Prog σ V E) {s : State σ V E} {t q} (hL : LInv P s) (op)
    (hG : ∀ st code, s.stack = .body t :: st → (s.coro t).code = some code →
      (∀ v, (codeNext P (s.coro t).owned code (s.coro t).inp).2 ≠ .markCb v) ∧
      ∀ q' v, (codeNext P (s.coro t).owned code (s.coro t).inp).2 = .ctxAlive q' v → q' = q)
    (h : Chk (okG t q) s.log) : Chk (okG t q) (step P s op).log := by
  have hq : ∀ pre (e : Ev V E), evL e = false → okG t q pre e := by intro pre e he; cases e <;> simp_all [okG, evL]
  cases lib_cases P s op with
  | quiet hn => exact h.noL hn (fun pre e he _ => hq pre e he)
  | enter w st hop hst hn hs => rw [hs]; exact h.snoc (hq _ _ rfl)
  | exit w hop hl hm hs => rw [hs]; exact h.snoc (hq _ _ rfl)
  | ret w st hop hst hs =>
    rw [hs]; unfold waitReturn; dsimp only; split
    · simp only [State.emit, reply_log]; exact h.snoc (hq _ _ rfl)
    · split
      · simp only [State.emit, reply_log]; exact h.snoc (hq _ _ rfl)
      · exact h
  | act c st code hop hst hf hc ha hs =>
    rw [hs]
    have hG' : c = t → _ := fun hct => hG st code (by rw [hst, hct]) (by rw [← hct]; exact hc)
    have hl : (actState P s c code).log = s.log := rfl
    have hqa : (actState P s c code).qalive = s.qalive := rfl
    cases hact : (codeNext P (s.coro c).owned code (s.coro c).inp).2 with
    | markCb v =>
      refine h.snoc (e := .cb c v) ?_
      intro hct; subst hct
      exact absurd hact ((hG' rfl).1 v)
    | markErr e => exact h.snoc (e := .err c e) trivial
    | ctxAlive q' v =>
      simp only [doAct, hqa]
      have hqq : c = t → q' = q := by intro hct; subst hct; exact (hG' rfl).2 q' v hact
      cases hx : s.qalive q' with
      | true =>
        refine h.snoc (e := .cb c v) ?_
        intro hct hm; rw [hL.qa, ← hqq hct, hx] at hm; simp at hm
      | false =>
        refine h.snoc (e := .guardDead c) ?_
        intro hct; rw [hL.qa, ← hqq hct, hx]
    | callTmp k code' v =>
      obtain ⟨evs, h1, h2⟩ := callTmp_log P (actState P s c code) c k code' v
      rw [h1]
      have h3 : Chk (okG t q) (s.log ++ [.cbTask c s.nc]) := h.snoc (e := .cbTask c s.nc) trivial
      exact h3.noL ⟨evs, by simp [hl]; rfl, h2⟩ (fun pre e he _ => hq pre e he)
    | _ => rw [hact] at ha; simp [actL] at ha

/-- Only `connect` has a context object. -/
theorem makes_guard {P : Prog σ V E} {s : State σ V E} {op t cfg rv k h q} (hm : Makes P s op t cfg rv k h) (hg : cfg.guard = some q) : k = .eager := by
  cases hm <;> simp_all [ThenCfg.plain]

/-- C18. When the callback of `connect` is called its context object exists, and when it is skipped the context object is
gone.  (Together with C15/C16: it is called at most once, with the task's value.) -/
theorem C18_context {P : Prog σ V E} {ops op ops' t cfg rv k h q} (hm : Makes P (exec P ops) op t cfg rv k h) (hg : cfg.guard = some q)
    (hu : (exec P (ops ++ op :: ops')).ub = none) :
    (∀ pre v post, (exec P (ops ++ op :: ops')).log = pre ++ .cb t v :: post → .ctxDel q ∉ pre) ∧
    (∀ pre post, (exec P (ops ++ op :: ops')).log = pre ++ .guardDead t :: post → .ctxDel q ∈ pre) := by
  have key : Chk (okG t q) (exec P (ops ++ op :: ops')).log := by
    have hsplit : ∀ l : List (Op σ V E), ops ++ op :: l = (ops ++ [op]) ++ l := by simp
    have hu0 : (exec P ops).ub = none := exec_ub_prefix _ _ hu
    have hu1 : (exec P (ops ++ [op])).ub = none := exec_ub_prefix _ _ (by rw [← hsplit]; exact hu)
    have ht : t = (exec P ops).nc := by cases hm <;> rfl
    have h0 : Chk (okG t q) (exec P (ops ++ [op])).log := by
      rw [exec_snoc]
      refine okG_step P (exec_linv P ops) op ?_ ?_
      · intro st code hst
        have := (exec_inv P ops hu0).i2.i1.core.bodyLt (c := t) (by simp [hst])
        omega
      · intro pre e post he
        have hh : hist t (exec P ops).log = [] := by
          refine hist_unborn (exec_linv P ops) ?_
          rw [(exec_linv P ops).life, ht, (exec_inv P ops hu0).i2.i1.core.corB _ (Nat.le_refl _)]
        rw [he, show pre ++ e :: post = (pre ++ [e]) ++ post by simp, hist_append, hist_snoc] at hh
        simp only [List.append_eq_nil_iff] at hh
        cases e <;> simp only [okG, hev] at hh ⊢
        all_goals (intro hx; simp [hx] at hh)
    rw [hsplit] at hu ⊢
    induction ops' using QCoro.snocInd with
    | nil => simpa using h0
    | snoc l x ih =>
      have hul : (exec P (ops ++ [op] ++ l)).ub = none := exec_ub_prefix _ [x] (by simpa using hu)
      rw [← List.append_assoc, exec_snoc]
      refine okG_step P (exec_linv P _) x ?_ (ih hul)
      obtain ⟨oo, hT⟩ := makes_exec hm (ops' := l) (by rw [hsplit]; exact hul)
      rw [hsplit] at hT
      have hI := exec_inv P _ hul
      obtain ⟨ph, hcode, hat, _⟩ := hT.at'
      intro st code hst hc
      have hrun := (hI.i2.i1.core.bodyR t).1 (by rw [hst]; simp)
      rw [hcode] at hc; cases hc
      rcases hat with ⟨hd, _⟩ | hat
      · rw [hrun] at hd; simp at hd
      rw [hrun] at hat
      generalize (exec P (ops ++ [op] ++ l)).coro t = co at *
      cases ph with
      | init => simp only [codeNext, thenNext]; split <;> simp
      | waiting =>
        rcases hat with ⟨_, h, _⟩ | ⟨_, _, _, h⟩ | ⟨d, r, _, _, _, hi⟩
        · simp at h
        · simp at h
        · rw [hi]
          cases r with
          | val v => simp only [codeNext, thenNext, hg]; simp
          | exc e =>
            simp only [codeNext, thenNext]
            split
            · cases cfg.err <;> simp
            · simp
      | guard v =>
        obtain ⟨_, _, _, d, p, _, _, ⟨hi, _⟩ | ⟨hi, _⟩⟩ := hat <;> rw [hi] <;> simp [codeNext, thenNext]
      | cbStart v => have h1 := hat.1; rw [hg] at h1; simp at h1
      | cbRun x => simp [codeNext, thenNext]
      | cbCalled => obtain ⟨_, _, d, p, v, d2, o2, _, _, _, hi, _⟩ := hat; rw [hi]; simp [codeNext, thenNext]
      | cbAwait o2 =>
        obtain ⟨_, d, p, v, d2, _, _, _, ⟨h, _⟩ | ⟨r, p2, _, hi, _⟩⟩ := hat
        · simp at h
        · rw [hi]; simp [codeNext, thenNext]
      | cbDrop r => cases r <;> simp [codeNext, thenNext]
      | errStart f e => simp [codeNext, thenNext]
      | errRun x => simp [codeNext, thenNext]
      | over => exact hat.elim
  exact ⟨fun pre v post he => key pre _ post he rfl, fun pre post he => key pre _ post he rfl⟩

/-- C18. If the context object was destroyed before the task completed, the callback is never called. -/
theorem C18_never_after_context_gone {P : Prog σ V E} {ops op ops' t cfg rv k h q} (hm : Makes P (exec P ops) op t cfg rv k h) (hg : cfg.guard = some q)
    (hu : (exec P (ops ++ op :: ops')).ub = none) {d r pre post} (hd : h = some d)
    (hl : (exec P (ops ++ op :: ops')).log = pre ++ .finished d r :: post) (hc : .ctxDel q ∈ pre) : cbs t (exec P (ops ++ op :: ops')).log = [] := by
  have hsrc : Same P ops op ops' t rv k h := .inr (.inl (makes_guard hm hg))
  cases hx : cbs t (exec P (ops ++ op :: ops')).log with
  | nil => rfl
  | cons v vs =>
    exfalso
    have hmem : .cb t v ∈ (exec P (ops ++ op :: ops')).log := by
      have : v ∈ cbs t (exec P (ops ++ op :: ops')).log := by rw [hx]; simp
      simp only [cbs, List.mem_filterMap] at this
      obtain ⟨e, he, h1⟩ := this
      cases e <;> simp at h1
      obtain ⟨rfl, rfl⟩ := h1; exact he
    obtain ⟨p1, p2, hl2⟩ := List.append_of_mem hmem
    have h1 := (C18_context hm hg hu).1 p1 v p2 hl2
    obtain ⟨d', v0, hd', hf, _⟩ := C15_callback_value hm hsrc hu p1 p2 v hl2
    rw [hd] at hd'; cases hd'
    -- the task completes only once, so `pre` is a prefix of `p1`
    have hf1 := fins_of_mem P (ops ++ op :: ops') (d := d) (r := .val v0) (by rw [hl2]; simp [hf])
    have hlen : pre.length < p1.length ∨ p1.length ≤ pre.length := by omega
    rw [hl] at hl2
    rcases hlen with hlt | hge
    · have : pre = p1.take pre.length := by
        have := congrArg (List.take pre.length) hl2
        simp [List.take_append_of_le_length (Nat.le_of_lt hlt)] at this
        exact this
      exact h1 (List.mem_of_mem_take (by rw [← this]; exact hc))
    · have : p1 = pre.take p1.length := by
        have := congrArg (List.take p1.length) hl2
        simp [List.take_append_of_le_length hge] at this
        exact this.symm
      have hf2 : .finished d (.val v0) ∈ pre := List.mem_of_mem_take (by rw [← this]; exact hf)
      have fa : ∀ a b : List (Ev V E), fins d (a ++ b) = fins d a ++ fins d b := by intro a b; simp [fins]
      rw [hl, fa] at hf1
      have h3 : fins d pre ≠ [] := List.ne_nil_of_mem (mem_fins.2 hf2)
      have h4 : fins d (Ev.finished d r :: post) ≠ [] := List.ne_nil_of_mem ((mem_fins (r := r)).2 (by simp))
      have := congrArg List.length hf1
      simp only [List.length_append, List.length_singleton] at this
      have := List.length_pos_iff.2 h3
      have := List.length_pos_iff.2 h4
      omega

/-- C18. If the context object still exists once the task has completed successfully and control is back in the event
loop, the callback has been called exactly once, with the task's value. -/
theorem C18_called_iff {P : Prog σ V E} {ops op ops' t cfg rv k h q} (hm : Makes P (exec P ops) op t cfg rv k h) (hg : cfg.guard = some q)
    (hu : (exec P (ops ++ op :: ops')).ub = none) (hq : (exec P (ops ++ op :: ops')).stack = [])
    {d v0} (hd : h = some d) (hf : .finished d (.val v0) ∈ (exec P (ops ++ op :: ops')).log) :
    (∃ v n, cbs t (exec P (ops ++ op :: ops')).log = [v] ∧ .guardDead t ∉ (exec P (ops ++ op :: ops')).log ∧
      n < (gots d (exec P (ops ++ op :: ops')).log).length ∧ Res.val v = readN P n (.val v0 : Res V E)) ∨
    (cbs t (exec P (ops ++ op :: ops')).log = [] ∧ .guardDead t ∈ (exec P (ops ++ op :: ops')).log ∧ .ctxDel q ∈ (exec P (ops ++ op :: ops')).log) := by
  have hsrc : Same P ops op ops' t rv k h := .inr (.inl (makes_guard hm hg))
  have hst : life t (exec P (ops ++ op :: ops')).log ≠ .initial := by
    obtain ⟨oo, hT⟩ := makes_exec hm hu
    obtain ⟨ph, hcode, _⟩ := hT.at'
    intro hx
    rw [(exec_linv P _).life] at hx
    have := hT.ini ph hcode hx
    rw [makes_guard hm hg] at this; simp at this
  have hdn : life d (exec P (ops ++ op :: ops')).log = .done := by
    have h1 := fins_of_mem P _ hf
    have h2 := (exec_linv P (ops ++ op :: ops')).rs d
    rw [(exec_linv P (ops ++ op :: ops')).life]
    refine ((exec_inv P _ hu).i2.i1.core.resD d).1 ?_
    cases hr : ((exec P (ops ++ op :: ops')).coro d).result with
    | none => rw [hr] at h2; rw [h2.1] at h1; simp at h1
    | some x => rfl
  obtain ⟨r, p, tl, hl, hp, ht, hend⟩ := C15_progress hm hsrc hu hq hd hdn hst
  have hgot : HEv.got d r ∈ hist t (exec P (ops ++ op :: ops')).log := by
    rw [hl]; rcases hp with rfl | rfl <;> simp
  obtain ⟨n, hn, hr⟩ := got_outcome hgot hf
  obtain ⟨v, hv⟩ := readN_val P v0 n
  rw [hv] at hr; subst hr
  have hgd : .guardDead t ∈ (exec P (ops ++ op :: ops')).log ↔ HEv.dead ∈ tl := by
    have h1 : HEv.dead ∈ tl ↔ HEv.dead ∈ hist t (exec P (ops ++ op :: ops')).log := by
      rw [hl]; rcases hp with rfl | rfl <;> simp
    rw [h1]
    simp only [hist, List.mem_filterMap]
    constructor
    · intro h; exact ⟨_, h, by simp [hev]⟩
    · rintro ⟨e, he, hh⟩
      cases e <;> simp only [hev] at hh <;> first | (simp at hh; done) | (split at hh <;> simp at hh)
      rename_i a hab; subst hab; exact he
  have hcb : cbs t (exec P (ops ++ op :: ops')).log = tl.filterMap cbOf := by
    rw [cbs_hist, hl, List.filterMap_append, cbOf_got hp, List.nil_append]
  rw [hcb, hgd]
  have hctx : HEv.dead ∈ tl → .ctxDel q ∈ (exec P (ops ++ op :: ops')).log := by
    intro h
    obtain ⟨p1, p2, h2⟩ := List.append_of_mem (hgd.2 h)
    have := (C18_context hm hg hu).2 p1 p2 h2
    rw [h2]; simp [this]
  have hcbt : cfg.cbTask = none := by cases hm <;> simp_all [ThenCfg.plain]
  rcases hend with ⟨tl', r', htl⟩ | ⟨v', d2, h1, rfl, _⟩
  · cases ht
    case cbFin h => exact .inl ⟨v, n, by simp [cbOf], by simp, hn, hv.symm⟩
    case deadFin h => exact .inr ⟨by simp [cbOf], by simp, hctx (by simp)⟩
    case taskFin hc h => rw [hcbt] at hc; simp at hc
    case taskGot hc h => rw [hcbt] at hc; simp at hc
    case task hc => rw [hcbt] at hc; simp at hc
    case taskReg hc => rw [hcbt] at hc; simp at hc
    case none => simp at htl
    case cb => exact .inl ⟨v, n, by simp [cbOf], by simp, hn, hv.symm⟩
    case dead h => exact .inr ⟨by simp [cbOf], by simp, hctx (by simp)⟩
  · generalize htl : [HEv.cb v', .cbTask d2, .reg d2] = tl at ht
    cases ht <;> simp at htl <;> simp_all

end QCoro.Task
