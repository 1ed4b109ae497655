import Verif.Task.ThenDemo
/-! # C65: chains of continuations: `std::move(task).then(f1).then(f2)…` -/
namespace QCoro.Task
variable {σ V E : Type}

/-- In the run `all`, coroutine `t` is the continuation made by `std::move(x).then(cfg…)` where `x` held coroutine `d`, which nobody had awaited.
Specification vocabulary, no counterpart in /repo. -/
def Link (P : Prog σ V E) (all : List (Op σ V E)) (d : Nat) (cfg : ThenCfg σ) (t : Nat) : Prop :=
  ∃ ops op ops' k, all = ops ++ op :: ops' ∧ Makes P (exec P ops) op t cfg true k (some d) ∧
    regs d (exec P ops).log = [] ∧ gots d (exec P ops).log = []

/-- A chain of continuations from `d` to `t`. Specification vocabulary, no counterpart in /repo. -/
inductive Chain (P : Prog σ V E) (all : List (Op σ V E)) : Nat → List (ThenCfg σ) → Nat → Prop
  | nil (d) : Chain P all d [] d
  | cons {d cfg m cfgs t} (h : Link P all d cfg m) (hs : Chain P all m cfgs t) : Chain P all d (cfg :: cfgs) t

/-- What one continuation makes of the outcome of its task. Specification, no counterpart in /repo. -/
inductive Stage (P : Prog σ V E) (log : List (Ev V E)) (cfg : ThenCfg σ) : Res V E → Res V E → Prop
  /- an ordinary callback is called with the very value, its result is the result -/
  | call (v r) (hc : cfg.cbTask = none) (h : EndsWith P cfg.cb (.start [] v) r) : Stage P log cfg (.val v) r
  /- a callback that is a coroutine: it is started with the very value, its outcome is the result -/
  | task (v t d2 r) (hc : cfg.cbTask.isSome) (h1 : .cb t v ∈ log) (h2 : .cbTask t d2 ∈ log) (h : .finished d2 r ∈ log) : Stage P log cfg (.val v) r
  /- an exception passes … -/
  | through (e) (h : cfg.err = none ∨ P.isStd e = false) : Stage P log cfg (.exc e) (.exc e)
  /- … up to the first error callback -/
  | handled (e f r) (he : cfg.err = some f) (hs : P.isStd e = true) (h : ErrResult P f e r) : Stage P log cfg (.exc e) r

/-- The stages one after the other. Specification, no counterpart in /repo. -/
inductive Pipe (P : Prog σ V E) (log : List (Ev V E)) : List (ThenCfg σ) → Res V E → Res V E → Prop
  | nil (r) : Pipe P log [] r r
  | cons {cfg cfgs a b c} (h : Stage P log cfg a b) (hs : Pipe P log cfgs b c) : Pipe P log (cfg :: cfgs) a c

theorem makesR_guard {P : Prog σ V E} {s : State σ V E} {op t cfg k h} (hm : Makes P s op t cfg true k h) : cfg.guard = none := by
  generalize hr : true = rv at hm
  cases hm with
  | thenR who o cfg hp => rfl
  | _ => cases hr

theorem readN_excX (P : Prog σ V E) (x : E) (n : Nat) : readN P n (.exc x : Res V E) = .exc x := by
  induction n with
  | zero => rfl
  | succ n ih => simp [readN, ih, afterRead]

theorem readN_exc' (P : Prog σ V E) (n : Nat) (r : Res V E) (e : E) (h : Res.exc e = readN P n r) : r = .exc e := by
  cases r with
  | val v => obtain ⟨v', hv⟩ := readN_val P v n; rw [hv] at h; cases h
  | exc x => rw [h]; exact ((readN_excX P x n).symm)

theorem link_stage {P : Prog σ V E} {all d cfg t r} (hl : Link P all d cfg t) (hu : (exec P all).ub = none)
    (ht : .finished t r ∈ (exec P all).log) : ∃ r0, .finished d r0 ∈ (exec P all).log ∧ Stage P (exec P all).log cfg r0 r := by
  obtain ⟨ops, op, ops', k, rfl, hm, hfr⟩ := hl
  have hg := makesR_guard hm
  have hS := C15_story hm hu
  have hft := mem_fins.2 ht
  rw [fins_hist] at hft
  have hok := (exec_linv P (ops ++ op :: ops')).ok
  generalize hh : hist t (exec P (ops ++ op :: ops')).log = l at *
  cases hS with
  | idle => simp at hft
  | hung => simp [finOf] at hft
  | waits => simp [finOf] at hft
  | after d' r1 p tl hD hp htl =>
    have hdd : d' = d := by have := hD (.inl rfl); simpa using this
    subst hdd
    have hgot : HEv.got d' r1 ∈ hist t (exec P (ops ++ op :: ops')).log := by rw [hh]; rcases hp with rfl | rfl <;> simp
    have hcb : ∀ v, HEv.cb v ∈ p ++ tl → .finished d' (.val v) ∈ (exec P (ops ++ op :: ops')).log := by
      intro v hv
      refine C15_exact_value hm hfr hu ?_
      rw [← hh] at hv
      simp only [hist, List.mem_filterMap] at hv
      obtain ⟨e, he, hx⟩ := hv
      cases e <;> simp only [hev] at hx <;> first | (simp at hx; done) | (split at hx <;> simp at hx)
      rename_i a v' ha
      subst ha; subst hx; exact he
    have hexc : ∀ e, r1 = .exc e → .finished d' (.exc e) ∈ (exec P (ops ++ op :: ops')).log := by
      rintro e rfl
      obtain ⟨pre, x, post, r0, h1, h2, h3, h4, h5⟩ := got_fins hok hgot
      have := readN_exc' P _ r0 e h5
      subst this
      have : Res.exc e ∈ fins d' pre := by rw [h4]; simp
      have := mem_fins.1 this
      rw [h1]; simp [this]
    rw [List.filterMap_append, finOf_got hp, List.nil_append] at hft
    cases htl <;> simp [finOf] at hft
    case cbFin v r' hc hx =>
      subst hft
      obtain ⟨r2, h1, h2⟩ := hx
      refine ⟨.val v, hcb v (by simp), .call v _ hc ?_⟩
      rw [hg] at h2; simp at h2; rw [h2]; exact h1
    case taskFin v d2 r' p' hc hp' =>
      have hfd := hcb v (by simp)
      obtain ⟨v', d3, h1, h2, h3⟩ := C15_result_coroutine_exact hm (.inl rfl) hu hc hg rfl hfd ht
      refine ⟨.val v, hfd, .task v t d3 r hc ?_ h2 h3⟩
      have : HEv.cb v ∈ hist t (exec P (ops ++ op :: ops')).log := by rw [hh]; simp
      simp only [hist, List.mem_filterMap] at this
      obtain ⟨e, he, hx⟩ := this
      cases e <;> simp only [hev] at hx <;> first | (simp at hx; done) | (split at hx <;> simp at hx)
      rename_i a v' ha
      subst ha; subst hx; exact he
    case deadFin hg' => rw [hg] at hg'; simp at hg'
    case taskGot v d2 r' p' hc hp' => rcases hp' with rfl | rfl <;> simp at hft
    case errFin e f r' he hs hx =>
      subst hft
      exact ⟨.exc e, hexc e rfl, .handled e f _ he hs hx⟩
    case through e hx =>
      subst hft
      exact ⟨.exc e, hexc e rfl, .through e hx⟩

/-- C65. A chain composes: when the last task of `std::move(task).then(f1)…​.then(fn)` has completed, `task` has completed, and the outcome of the
last task is what the stages make of the outcome of `task`, one after the other. -/
theorem C65_composes {P : Prog σ V E} {all d cfgs t r} (hc : Chain P all d cfgs t) (hu : (exec P all).ub = none)
    (ht : .finished t r ∈ (exec P all).log) : ∃ r0, .finished d r0 ∈ (exec P all).log ∧ Pipe P (exec P all).log cfgs r0 r := by
  induction hc with
  | nil d => exact ⟨r, ht, .nil r⟩
  | cons h hs ih =>
    obtain ⟨r1, h1, h2⟩ := ih ht
    obtain ⟨r0, h3, h4⟩ := link_stage h hu h1
    exact ⟨r0, h3, .cons h4 h2⟩

/-- The tasks of the chain after the first. Specification vocabulary, no counterpart in /repo. -/
inductive Chain.Has (P : Prog σ V E) (all : List (Op σ V E)) : Nat → List (ThenCfg σ) → Nat → Nat → Prop
  | here {d cfg m cfgs t} (h : Link P all d cfg m) (hs : Chain P all m cfgs t) : Has P all d (cfg :: cfgs) t m
  | there {d cfg m cfgs t x} (h : Link P all d cfg m) (hs : Has P all m cfgs t x) : Has P all d (cfg :: cfgs) t x

theorem done_of_finished {P : Prog σ V E} {ops d r} (hu : (exec P ops).ub = none) (hf : .finished d r ∈ (exec P ops).log) :
    life d (exec P ops).log = .done := by
  have h1 := fins_of_mem P _ hf
  have h2 := (exec_linv P ops).rs d
  rw [(exec_linv P ops).life]
  refine ((exec_inv P _ hu).i2.i1.core.resD d).1 ?_
  cases hr : ((exec P ops).coro d).result with
  | none => rw [hr] at h2; rw [h2.1] at h1; simp at h1
  | some x => rfl

/-- C65. A chain runs through: once the first task has completed and control is back in the event loop, the last one has completed, provided
no callback is a coroutine and no link is a LazyTask nobody has started. -/
theorem C65_runs_through {P : Prog σ V E} {all d cfgs t r0} (hc : Chain P all d cfgs t) (hu : (exec P all).ub = none) (hq : (exec P all).stack = [])
    (hplain : ∀ cfg ∈ cfgs, cfg.cbTask = none) (hst : ∀ x, Chain.Has P all d cfgs t x → life x (exec P all).log ≠ .initial) (hf : .finished d r0 ∈ (exec P all).log) :
    ∃ r, .finished t r ∈ (exec P all).log := by
  induction hc generalizing r0 with
  | nil d => exact ⟨r0, hf⟩
  | @cons d cfg m cfgs t h hs ih =>
    have hm : ∃ r, .finished m r ∈ (exec P all).log := by
      obtain ⟨ops, op, ops', k, rfl, hm, hfr⟩ := h
      obtain ⟨r, p, tl, hl, hp, ht, ⟨tl', r', rfl⟩ | ⟨v, d2, h1, rfl, _⟩⟩ := C15_progress hm (.inl rfl) hu hq rfl (done_of_finished hu hf) (hst m (.here ⟨ops, op, ops', k, rfl, hm, hfr⟩ hs))
      · refine ⟨r', mem_fins.1 ?_⟩
        rw [fins_hist, hl]; simp [finOf]
      · exfalso
        have hn := hplain cfg (by simp)
        generalize htl : [HEv.cb v, .cbTask d2, .reg d2] = tl at ht
        cases ht <;> simp_all
    obtain ⟨r, hr⟩ := hm
    exact ih (fun c hc => hplain c (by simp [hc])) (fun x hx => hst x (.there h hx)) hr

/-! ### The hypotheses are met -/

/-- `a().then(40, 41).then(c)` where `a` waits for something external; then `a` completes. -/
def chainRun (c : ThenCfg Nat) (r : Res Nat Nat) : List (Op Nat Nat Nat) :=
  thenPre ++ thenOp cfgPlain :: (go 3 ++ .main (.thenR 2 c) :: (go 3 ++ [.fire 0 r] ++ go 40))

theorem chainRun_chain (c : ThenCfg Nat) (r : Res Nat Nat) : Chain demo (chainRun c r) 0 [cfgPlain.plain, c.plain] 2 := by
  refine .cons ⟨thenPre, thenOp cfgPlain, _, _, rfl, thenRun_makes cfgPlain, by decide, by decide⟩ ?_
  have hm := Makes.thenR (P := demo) (s := exec demo (thenPre ++ thenOp cfgPlain :: go 3)) (op := .main (.thenR 2 c)) none 2 c ⟨by decide, .inl ⟨rfl, rfl, by decide⟩⟩
  have h1 : (exec demo (thenPre ++ thenOp cfgPlain :: go 3)).nc = 2 := by decide
  have h2 : ((exec demo (thenPre ++ thenOp cfgPlain :: go 3)).obj 2).handle = some 1 := by decide
  have h3 : (exec demo thenPre).nc = 1 := by decide
  rw [h1, h2] at hm
  rw [h3]
  exact .cons ⟨thenPre ++ thenOp cfgPlain :: go 3, .main (.thenR 2 c), go 3 ++ [.fire 0 r] ++ go 40, _, by simp [chainRun], hm, by decide, by decide⟩ (.nil 2)

set_option maxRecDepth 8000 in
/-- Value 5 reaches the first callback, its result 1 the second one; exception 9 is handled by the first error callback and the default value
reaches the second callback; exception 200 passes both. -/
theorem C65_example :
    (exec demo (chainRun cfgPlain (.val 5))).ub = none ∧ (exec demo (chainRun cfgPlain (.val 5))).stack = [] ∧
    cbs 1 (exec demo (chainRun cfgPlain (.val 5))).log = [5] ∧ cbs 2 (exec demo (chainRun cfgPlain (.val 5))).log = [1] ∧
    fins 2 (exec demo (chainRun cfgPlain (.val 5))).log = [.val 1] ∧
    errs 1 (exec demo (chainRun cfgCoro (.exc 9))).log = [9] ∧ cbs 2 (exec demo (chainRun cfgCoro (.exc 9))).log = [0] ∧
    fins 2 (exec demo (chainRun cfgCoro (.exc 9))).log = [.val 7] ∧
    cbs 2 (exec demo (chainRun cfgPlain (.exc 200))).log = [] ∧ fins 2 (exec demo (chainRun cfgPlain (.exc 200))).log = [.exc 200] := by decide

end QCoro.Task
