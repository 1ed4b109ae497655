import Verif.Task.Answers
import Verif.Task.WaitProps
import Verif.Task.ThenMore

/-! C67: conversion of an awaitable to a Task (`detail::toTask`), used by `QCoro::connect(awaitable, …)` and by `QmlTask`. -/
namespace QCoro.Task
variable {σ V E : Type}

/-- The `co_await` of `toTask` on its argument: a Task (lvalue), or anything else that can be awaited (`waitfor.h:24-25`). -/
def awaits : Arg V E → UAct σ V E
  | .ext now => .awaitExt now
  | .task o => .await o

/-- The body `f`, called with `v`, is `co_return co_await a` (`waitfor.h:22-26`): it awaits `a`, returns the value it gets and lets an
exception through. -/
structure Forwards (P : Prog σ V E) (f : σ) (v : V) (a : Arg V E) : Prop where
  first : (P.next f (.start [] v)).2 = awaits a
  val : ∀ x, (P.next (P.next f (.start [] v)).1 (.res (.val x))).2 = .ret x
  exc : ∀ e, (P.next (P.next f (.start [] v)).1 (.res (.exc e))).2 = .throw e

theorem Forwards.plays {P : Prog σ V E} {f v a x} (h : Forwards P f v a) (hx : Plays P f (.start [] v) x) :
    x = ⟨f, none, []⟩ ∨ (x.last = some (awaits a)) ∨ (∃ y, x.last = some (.ret y)) ∨ ∃ e, x.last = some (.throw e) := by
  have key : x = ⟨f, none, []⟩ ∨ (x.last = some (awaits a) ∧ x.st = (P.next f (.start [] v)).1) ∨ (∃ y, x.last = some (.ret y)) ∨ ∃ e, x.last = some (.throw e) := by
    induction hx with
    | start => exact .inl rfl
    | @turn x hp i hi ih =>
      rcases ih with rfl | ⟨h1, h2⟩ | ⟨y, h1⟩ | ⟨e, h1⟩
      · simp only [Fits] at hi; subst hi
        exact .inr (.inl ⟨by simp [Point.turn, h.first], rfl⟩)
      · have : ∃ r, i = .res r := by
          rw [h1] at hi
          cases a with
          | task o => exact hi
          | ext now =>
            cases now with
            | none => exact hi
            | some r => exact ⟨r, hi⟩
        obtain ⟨r, rfl⟩ := this
        cases r with
        | val y => exact .inr (.inr (.inl ⟨y, by simp [Point.turn, h2, h.val]⟩))
        | exc e => exact .inr (.inr (.inr ⟨e, by simp [Point.turn, h2, h.exc]⟩))
      · rw [h1] at hi; exact hi.elim
      · rw [h1] at hi; exact hi.elim
  rcases key with h | ⟨h, _⟩ | h
  · exact .inl h
  · exact .inr (.inl h)
  · exact .inr (.inr h)

/-- The converted task has not executed its first statement. -/
structure CIn (f : σ) (v : V) (c : Nat) (s : State σ V E) : Prop where
  hc : (s.coro c).code = some (.user f)
  hi : (s.coro c).inp = .start [] v
  hl : hist c s.log = []
  hs : (s.coro c).status = .running

/-- The converted task has executed its first statement, when its argument was `h`: what it has done so far. -/
inductive CPh (P : Prog σ V E) (f : σ) (v : V) (a : Arg V E) (h : Aim) (c : Nat) (s : State σ V E) : Prop
  | hung (hc : (s.coro c).code = some (.user (P.next f (.start [] v)).1)) (hl : hist c s.log = [.hung]) (hs : (s.coro c).status = .waitNull) (ha : h = .task none)
  | reg (d) (hc : (s.coro c).code = some (.user (P.next f (.start [] v)).1)) (hl : hist c s.log = [.reg d]) (hs : (s.coro c).status = .waitTask d) (ha : h = .task (some d))
      (hn : ∃ o, a = .task o)
  | ext (hc : (s.coro c).code = some (.user (P.next f (.start [] v)).1)) (hl : hist c s.log = []) (hs : (s.coro c).status = .waitExt) (ha : h = .ext) (hn : a = .ext none)
  | got (x) (hc : (s.coro c).code = some (.user (P.next f (.start [] v)).1)) (hl : GotA h x (hist c s.log)) (hs : (s.coro c).status = .running) (hi : (s.coro c).inp = .res x)
      (hn : ∀ y, a = .ext (some y) → x = y)
  | fin (x p) (hl : hist c s.log = p ++ [.fin x]) (hp : GotA h x p) (hs : (s.coro c).status = .done) (hn : ∀ y, a = .ext (some y) → x = y)

theorem cin_step {P : Prog σ V E} {f v a c} {s : State σ V E} (hF : Forwards P f v a) (hI : Inv s) (hu : s.ub = none) (op) (hu' : (step P s op).ub = none)
    {x} (hW : Where P c f (.start [] v) s x) (hC : CIn f v c s) :
    CIn f v c (step P s op) ∨ (op = .run ∧ Performs P s .run (some c) (awaits a) ∧ CPh P f v a (s.aim a) c (step P s op)) := by
  have hco := hI.i2.i1.core
  have loc := step_loc P hI hu op hu' hW.lt
  obtain ⟨hc, hi, hl, hs⟩ := hC
  by_cases htop : op = .run ∧ ∃ st, s.stack = .body c :: st
  · obtain ⟨rfl, st, hst⟩ := htop
    have hrun : (s.coro c).status = .running := (hco.bodyR c).1 (by rw [hst]; simp [bodies])
    have hf : (s.coro c).freed = false := hco.notFreed hW.lt (by rw [hrun]; simp)
    refine .inr ⟨rfl, ⟨hu, .inr ⟨c, st, .user f, rfl, rfl, hst, hf, hc, by simp [codeNext, hi, hF.first]⟩⟩, ?_⟩
    have hstep := step_run_body (P := P) hu hst hf hc
    have hac := actState_coro P s c (.user f)
    have hlog : (actState P s c (.user f)).log = s.log := rfl
    have hobj : (actState P s c (.user f)).obj = s.obj := rfl
    rw [hstep] at hu' ⊢
    simp only [codeNext, hi, hF.first] at hu' hac ⊢
    generalize actState P s c (.user f) = s1 at *
    have hrun1 : (s1.coro c).status = .running := by rw [hac]; exact hrun
    cases a with
    | ext now =>
      cases now with
      | some y =>
        simp only [awaits, doAct, doUser] at hu' ⊢
        refine .got y ?_ (.inr ⟨rfl, ?_⟩) ?_ ?_ (by intro z hz; cases hz; rfl)
        · simp [State.reply, State.emit, State.setCoro, hac]
        · show hist c ((s1.log ++ [.extSusp c]) ++ [.extRes c y]) = _; rw [hist_snoc, hist_snoc, hlog, hl]; simp [hev]
        · simp [State.reply, State.emit, State.setCoro, hrun1]
        · simp [State.reply, State.emit, State.setCoro]
      | none =>
        simp only [awaits, doAct, doUser] at hu' ⊢
        refine .ext ?_ ?_ ?_ rfl rfl
        · simp [State.pop, State.emit, State.setCoro, hac]
        · show hist c (s1.log ++ [.extSusp c]) = []; rw [hist_snoc, hlog, hl]; simp [hev]
        · simp [State.pop, State.emit, State.setCoro]
    | task o =>
      simp only [awaits, doAct, doUser] at hu' ⊢
      obtain ⟨h1, h2, h3, h4⟩ := self_await P s1 c o false hrun1 hu'
      have key : ∀ x, (s1.obj o).handle = x → s.aim (.task o : Arg V E) = .task x := by intro x hx; rw [State.aim, ← hobj, hx]
      rcases h4 with ⟨a, b, e⟩ | ⟨d, a, ⟨x, b, e, g, _⟩ | ⟨b, e⟩⟩
      · exact .hung (by rw [h1, hac]) (by rw [e, hlog, hl]; rfl) b (key _ a)
      · exact .got x (by rw [h1, hac]) (.inl ⟨d, key _ a, .inl (by rw [g, hlog, hl]; rfl)⟩) b e (by intro y hy; cases hy)
      · exact .reg d (by rw [h1, hac]) (by rw [e, hlog, hl]; rfl) b (key _ a) ⟨o, rfl⟩
  · left
    cases loc with
    | act st code hst hc hf hop h => exact absurd ⟨hop, st, hst⟩ htop
    | same k q =>
      refine ⟨k.code.trans hc, k.inp.trans hi, k.hist.trans hl, ?_⟩
      rcases k.status with h | ⟨h, _⟩
      · rw [h, hs]
      · rw [hs] at h; cases h
    | woken d r st st' inp code owned kind hi tk => rw [hs] at st; cases st
    | ext r st st' inp code tk hi => rw [hs] at st; cases st
    | ret r us st code owned kind hi inp w cl al al' tk =>
      exfalso
      have hcall : Calling c w s := ⟨al, cl⟩
      rcases hW.now with ⟨_, _, h, _⟩ | ⟨_, h, _⟩ | ⟨⟨o, b, h⟩, _⟩ | ⟨_, _, h, _⟩
      · exact h w hcall
      · exact h w hcall
      · rcases hF.plays hW.plays with rfl | h1 | ⟨y, h1⟩ | ⟨e, h1⟩
        · cases h
        · rw [h1] at h; cases a <;> cases h
        · rw [h1] at h; cases h
        · rw [h1] at h; cases h
      · exact h w hcall

theorem cph_step {P : Prog σ V E} {f v a h c} {s : State σ V E} (hF : Forwards P f v a) (hI : Inv s) (hu : s.ub = none) (op) (hu' : (step P s op).ub = none)
    {x} (hW : Where P c f (.start [] v) s x) (hC : CPh P f v a h c s) : CPh P f v a h c (step P s op) := by
  have hco := hI.i2.i1.core
  have loc := step_loc P hI hu op hu' hW.lt
  by_cases htop : op = .run ∧ ∃ st, s.stack = .body c :: st
  · obtain ⟨rfl, st, hst⟩ := htop
    have hrun : (s.coro c).status = .running := (hco.bodyR c).1 (by rw [hst]; simp [bodies])
    have hf : (s.coro c).freed = false := hco.notFreed hW.lt (by rw [hrun]; simp)
    cases hC with
    | hung hc hl hs ha => rw [hrun] at hs; cases hs
    | reg d hc hl hs ha hn => rw [hrun] at hs; cases hs
    | ext hc hl hs ha hn => rw [hrun] at hs; cases hs
    | fin y p hl hp hs hn => rw [hrun] at hs; cases hs
    | got y hc hl hs hi hn =>
      have hstep := step_run_body (P := P) hu hst hf hc
      have hlog : (actState P s c (.user (P.next f (.start [] v)).1)).log = s.log := rfl
      rw [hstep]
      have key : ∀ s1 : State σ V E, s1.log = s.log → CPh P f v a h c (finish s1 c y) := by
        intro s1 h1
        obtain ⟨_, _, _, h4, h5⟩ := self_finish s1 c y
        exact .fin y (hist c s.log) (by rw [h5, h1]) hl h4 hn
      cases y with
      | val z => simp only [codeNext, hi, hF.val, doAct, doUser]; exact key _ hlog
      | exc z => simp only [codeNext, hi, hF.exc, doAct, doUser]; exact key _ hlog
  · cases loc with
    | act st code hst hc hf hop h => exact absurd ⟨hop, st, hst⟩ htop
    | same k q =>
      cases hC with
      | hung hc hl hs ha =>
        refine .hung (k.code.trans hc) (k.hist.trans hl) ?_ ha
        rcases k.status with h | ⟨h, _⟩
        · rw [h, hs]
        · rw [hs] at h; cases h
      | reg d hc hl hs ha hn =>
        refine .reg d (k.code.trans hc) (k.hist.trans hl) ?_ ha hn
        rcases k.status with h | ⟨h, _⟩
        · rw [h, hs]
        · rw [hs] at h; cases h
      | ext hc hl hs ha hn =>
        refine .ext (k.code.trans hc) (k.hist.trans hl) ?_ ha hn
        rcases k.status with h | ⟨h, _⟩
        · rw [h, hs]
        · rw [hs] at h; cases h
      | got y hc hl hs hi hn =>
        refine .got y (k.code.trans hc) (by rw [k.hist]; exact hl) ?_ (k.inp.trans hi) hn
        rcases k.status with h | ⟨h, _⟩
        · rw [h, hs]
        · rw [hs] at h; cases h
      | fin y p hl hp hs hn =>
        refine .fin y p (k.hist.trans hl) hp ?_ hn
        rcases k.status with h | ⟨h, _⟩
        · rw [h, hs]
        · rw [hs] at h; cases h
    | woken d r st st' inp code owned kind hi tk =>
      cases hC with
      | reg d' hc hl hs ha hn =>
        rw [hs] at st; cases st
        exact .got r (code.trans hc) (.inl ⟨d, ha, .inr (by rw [hi, hl]; rfl)⟩) st' inp (by rintro y rfl; obtain ⟨o, ho⟩ := hn; cases ho)
      | hung hc hl hs ha => rw [hs] at st; cases st
      | ext hc hl hs ha hn => rw [hs] at st; cases st
      | got y hc hl hs hi hn => rw [hs] at st; cases st
      | fin y p hl hp hs hn => rw [hs] at st; cases st
    | ext r st st' inp code tk hi =>
      cases hC with
      | ext hc hl hs ha hn =>
        exact .got r (code.trans hc) (.inr ⟨ha, by rw [hi, hl]; rfl⟩) st' inp (by intro y hy; rw [hn] at hy; cases hy)
      | hung hc hl hs ha => rw [hs] at st; cases st
      | reg d hc hl hs ha hn => rw [hs] at st; cases st
      | got y hc hl hs hi hn => rw [hs] at st; cases st
      | fin y p hl hp hs hn => rw [hs] at st; cases st
    | ret r us st code owned kind hi inp w cl al al' tk =>
      -- it never calls waitFor
      exfalso
      have hcall : Calling c w s := ⟨al, cl⟩
      rcases hW.now with ⟨_, _, h, _⟩ | ⟨_, h, _⟩ | ⟨⟨o, b, h⟩, _⟩ | ⟨_, _, h, _⟩
      · exact h w hcall
      · exact h w hcall
      · rcases hF.plays hW.plays with rfl | h1 | ⟨y, h1⟩ | ⟨e, h1⟩
        · cases h
        · rw [h1] at h; cases a <;> cases h
        · rw [h1] at h; cases h
        · rw [h1] at h; cases h
      · exact h w hcall

theorem cin_born {P : Prog σ V E} {ops op who f v} (hp : Performs P (exec P ops) op who (.call .eager f v []))
    (hu : (exec P (ops ++ [op])).ub = none) : CIn f v (exec P ops).nc (exec P (ops ++ [op])) := by
  have hu0 : (exec P ops).ub = none := hp.1
  have hun : hist (exec P ops).nc (exec P ops).log = [] :=
    hist_unborn (exec_linv P ops) (by rw [(exec_linv P ops).life, (exec_inv P _ hu0).i2.i1.core.corB _ (Nat.le_refl _)])
  rw [exec_snoc] at hu ⊢
  generalize exec P ops = s at *
  obtain ⟨s1, hs, hl, ho, hnc, hno, hstk, hw, hnw, hwc⟩ := hp.step
  rw [hs] at hu ⊢
  have hm : moveArgs s1 [] = (s1, []) := rfl
  simp only [doUser, hm] at hu ⊢
  have key : ∀ b : State σ V E, b.nc = s.nc → b.log = s.log → CIn f v s.nc (spawn P b .eager (.user f) [] v .user) := by
    intro b hb hbl
    obtain ⟨a1, a2, a3, a4, a5, a6, a7, a8, a9⟩ := spawn_new P b .eager (.user f) [] v .user
    have a10 : ((spawn P b .eager (.user f) [] v .user).coro b.nc).inp = .start [] v := by
      simp [spawn, State.push, State.emit, State.setCoro, State.setObj]
    rw [hb] at a1 a4 a9 a10
    exact ⟨a1, a10, by rw [a9, hbl, hun], a4⟩
  split at hu
  · rename_i hx; rw [hu] at hx; simp at hx
  · rename_i hx
    rw [if_neg hx]
    cases who with
    | none => exact key _ hnc hl
    | some p => exact key _ hnc hl

/-- What the argument `a` referred to when coroutine `c`, created by `op`, executed its `co_await a`. -/
def AimOf (P : Prog σ V E) (ops : List (Op σ V E)) (op : Op σ V E) (ops' : List (Op σ V E)) (c : Nat) (a : Arg V E) (h : Aim) : Prop :=
  ∃ l1 l2, ops' = l1 ++ .run :: l2 ∧ Performs P (exec P (ops ++ op :: l1)) .run (some c) (awaits a) ∧ (exec P (ops ++ op :: l1)).aim a = h

theorem conv_exec {P : Prog σ V E} {ops op ops' who f v a} (hp : Performs P (exec P ops) op who (.call .eager f v []))
    (hF : Forwards P f v a) (hu : (exec P (ops ++ op :: ops')).ub = none) :
    CIn f v (exec P ops).nc (exec P (ops ++ op :: ops')) ∨
    ∃ h, AimOf P ops op ops' (exec P ops).nc a h ∧ CPh P f v a h (exec P ops).nc (exec P (ops ++ op :: ops')) := by
  induction ops' using QCoro.snocInd with
  | nil => exact .inl (cin_born hp hu)
  | snoc l o ih =>
    have e : ops ++ op :: (l ++ [o]) = (ops ++ op :: l) ++ [o] := by simp
    rw [e] at hu ⊢
    have hul := exec_ub_prefix _ [o] hu
    obtain ⟨x, hW⟩ := where_exec hp hul
    have hI := exec_inv P _ hul
    rw [exec_snoc] at hu ⊢
    rcases ih hul with h | ⟨h, ⟨l1, l2, h1, h2⟩, h3⟩
    · rcases cin_step hF hI hul o hu hW h with h | ⟨rfl, h1, h2⟩
      · exact .inl h
      · exact .inr ⟨_, ⟨l, [], rfl, h1, rfl⟩, h2⟩
    · exact .inr ⟨h, ⟨l1, l2 ++ [o], by rw [h1]; simp, h2⟩, cph_step hF hI hul o hu hW h3⟩

theorem gotA_fins {h : Aim} {x : Res V E} {p} (hg : GotA h x p) : p.filterMap finOf = [] := by
  rcases hg with ⟨d, _, rfl | rfl⟩ | ⟨_, rfl⟩ <;> rfl

theorem AimOf.ext {P : Prog σ V E} {ops op ops' c now h} (hA : AimOf P ops op ops' c (.ext now) h) : h = .ext := by
  obtain ⟨_, _, _, _, rfl⟩ := hA; rfl

/-- C67. The outcome of a converted awaitable: if the task has completed then with what its `co_await` of the argument gave: the outcome of
the Task (what is left of it, if others awaited the same task before), or exactly what the awaitable produced. -/
theorem C67_outcome {P : Prog σ V E} {ops op ops' who f v a c} (hp : Performs P (exec P ops) op who (.call .eager f v []))
    (hc : c = (exec P ops).nc) (hF : Forwards P f v a) (hu : (exec P (ops ++ op :: ops')).ub = none)
    {x} (hx : .finished c x ∈ (exec P (ops ++ op :: ops')).log) :
    ∃ h, AimOf P ops op ops' c a h ∧
      ((∃ d r0 n, h = .task (some d) ∧ .finished d r0 ∈ (exec P (ops ++ op :: ops')).log ∧ n < (gots d (exec P (ops ++ op :: ops')).log).length ∧ x = readN P n r0) ∨
       (h = .ext ∧ .extRes c x ∈ (exec P (ops ++ op :: ops')).log)) := by
  subst hc
  have hL := exec_linv P (ops ++ op :: ops')
  have hf := mem_fins.2 hx
  rw [fins_hist] at hf
  rcases conv_exec hp hF hu with h | ⟨h, hA, hC⟩
  · rw [h.hl] at hf; simp at hf
  · refine ⟨h, hA, ?_⟩
    cases hC with
    | hung _ hl => rw [hl] at hf; simp [finOf] at hf
    | reg d _ hl => rw [hl] at hf; simp [finOf] at hf
    | ext _ hl => rw [hl] at hf; simp at hf
    | got y _ hl => rw [gotA_fins hl] at hf; simp at hf
    | fin y p hl hg hs hn =>
      rw [hl, List.filterMap_append, gotA_fins hg] at hf
      simp [finOf] at hf
      subst hf
      rcases hg with ⟨d, h1, h2⟩ | ⟨h1, h2⟩
      · obtain ⟨r0, n, h4, h5, h6⟩ := wait_got hL.ok h2 hl
        exact .inl ⟨d, r0, n, h1, h4, h5, h6⟩
      · exact .inr ⟨h1, ext_mem.1 (by rw [hl, h2]; simp)⟩

/-- C67. It completes exactly when its argument has: whenever control is back in the event loop, the converted task is finished if and only
if what it was made from has completed. -/
theorem C67_completes_iff {P : Prog σ V E} {ops op ops' who f v a c} (hp : Performs P (exec P ops) op who (.call .eager f v []))
    (hc : c = (exec P ops).nc) (hF : Forwards P f v a) (hu : (exec P (ops ++ op :: ops')).ub = none) (hq : (exec P (ops ++ op :: ops')).stack = []) :
    ∃ h, AimOf P ops op ops' c a h ∧ ((∃ x, .finished c x ∈ (exec P (ops ++ op :: ops')).log) ↔ Completed h c (exec P (ops ++ op :: ops')).log) := by
  subst hc
  have hL := exec_linv P (ops ++ op :: ops')
  have hI := exec_inv P _ hu
  have hnr : ∀ c, ((exec P (ops ++ op :: ops')).coro c).status ≠ .running := by
    intro c hc; have := (hI.i2.i1.core.bodyR c).2 hc; rw [hq] at this; simp [bodies] at this
  have nofin : (hist (exec P ops).nc (exec P (ops ++ op :: ops')).log).filterMap finOf = [] → ¬ ∃ x, .finished (exec P ops).nc x ∈ (exec P (ops ++ op :: ops')).log := by
    rintro h ⟨x, hx⟩
    have := mem_fins.2 hx
    rw [fins_hist, h] at this; simp at this
  rcases conv_exec hp hF hu with h | ⟨h, hA, hC⟩
  · exact absurd h.hs (hnr _)
  · refine ⟨h, hA, ?_⟩
    cases hC with
    | hung _ hl hs ha =>
      refine ⟨fun h => absurd h (nofin (by rw [hl]; simp [finOf])), fun h => absurd h (idle_open hL.ok (.inl ⟨hl, ha⟩))⟩
    | reg d _ hl hs ha =>
      refine ⟨fun h => absurd h (nofin (by rw [hl]; simp [finOf])), fun h => absurd h (idle_open hL.ok (.inr (.inl ⟨d, ha, hl, ?_⟩)))⟩
      intro hd
      exact (C04_all_resumed P _ hu d hq hd).2 (exec P ops).nc (by rw [hL.life, hs])
    | ext _ hl hs ha =>
      exact ⟨fun h => absurd h (nofin (by rw [hl]; simp)), fun h => absurd h (idle_open hL.ok (.inr (.inr ⟨hl, ha⟩)))⟩
    | got y _ _ hs => exact absurd hs (hnr _)
    | fin y p hl hg hs hn =>
      constructor
      · intro _
        rcases hg with ⟨d, h1, h2⟩ | ⟨h1, h2⟩
        · obtain ⟨r0, n, h4, h5, h6⟩ := wait_got hL.ok h2 hl
          exact .inl ⟨d, r0, h1, h4⟩
        · exact .inr ⟨y, h1, ext_mem.1 (by rw [hl, h2]; simp)⟩
      · intro _
        exact ⟨y, mem_fins.1 (by rw [fins_hist, hl]; simp [finOf])⟩

/-- C67. Conversion of an awaitable that is not a Task: as soon as control is back in the event loop after the awaitable produced `x`, the
task has completed, with `x`. -/
theorem C67_awaitable {P : Prog σ V E} {ops op ops' who f v now c} (hp : Performs P (exec P ops) op who (.call .eager f v []))
    (hc : c = (exec P ops).nc) (hF : Forwards P f v (.ext now)) (hu : (exec P (ops ++ op :: ops')).ub = none) (hq : (exec P (ops ++ op :: ops')).stack = []) (x) :
    .finished c x ∈ (exec P (ops ++ op :: ops')).log ↔ .extRes c x ∈ (exec P (ops ++ op :: ops')).log := by
  subst hc
  have hI := exec_inv P _ hu
  have hnr : ∀ c, ((exec P (ops ++ op :: ops')).coro c).status ≠ .running := by
    intro c hc; have := (hI.i2.i1.core.bodyR c).2 hc; rw [hq] at this; simp [bodies] at this
  have key : ∀ y p, GotA .ext y p → hist (exec P ops).nc (exec P (ops ++ op :: ops')).log = p ++ [.fin y] →
      (.finished (exec P ops).nc x ∈ (exec P (ops ++ op :: ops')).log ↔ .extRes (exec P ops).nc x ∈ (exec P (ops ++ op :: ops')).log) := by
    intro y p hg hl
    rw [← mem_fins, fins_hist, ← ext_mem, hl, List.filterMap_append, gotA_fins hg]
    rcases hg with ⟨d, h1, _⟩ | ⟨_, rfl⟩
    · cases h1
    · simp [finOf]
  rcases conv_exec hp hF hu with h | ⟨h, hA, hC⟩
  · exact absurd h.hs (hnr _)
  · have hh := hA.ext
    subst hh
    cases hC with
    | hung _ hl hs ha => cases ha
    | reg d _ hl hs ha => cases ha
    | ext _ hl hs ha => rw [← mem_fins, fins_hist, ← ext_mem, hl]; simp
    | got y _ _ hs => exact absurd hs (hnr _)
    | fin y p hl hg hs hn => exact key y p hg hl

/-- C67. Conversion of an awaitable that is ready with `y`: the task has completed, with `y`, before control is back in the event loop. -/
theorem C67_ready_awaitable {P : Prog σ V E} {ops op ops' who f v y c} (hp : Performs P (exec P ops) op who (.call .eager f v []))
    (hc : c = (exec P ops).nc) (hF : Forwards P f v (.ext (some y))) (hu : (exec P (ops ++ op :: ops')).ub = none) (hq : (exec P (ops ++ op :: ops')).stack = []) :
    .finished c y ∈ (exec P (ops ++ op :: ops')).log := by
  subst hc
  have hI := exec_inv P _ hu
  have hnr : ∀ c, ((exec P (ops ++ op :: ops')).coro c).status ≠ .running := by
    intro c hc; have := (hI.i2.i1.core.bodyR c).2 hc; rw [hq] at this; simp [bodies] at this
  rcases conv_exec hp hF hu with h | ⟨h, hA, hC⟩
  · exact absurd h.hs (hnr _)
  · have hh := hA.ext
    subst hh
    cases hC with
    | hung _ hl hs ha => cases ha
    | reg d _ hl hs ha => cases ha
    | ext _ hl hs ha hn => cases hn
    | got y _ _ hs => exact absurd hs (hnr _)
    | fin z p hl hg hs hn =>
      have := hn y rfl
      subst this
      exact mem_fins.1 (by rw [fins_hist, hl]; simp [finOf])

/-- C67. `QCoro::connect(awaitable, q, f)` (`connect.h:51-59`: convert, then connect the task): if nobody else takes the result of the
converted task, then whenever control is back in the event loop after the awaitable produced the value `x`, `f` has been called exactly once,
with `x`, or it has been skipped because the context object is gone. -/
theorem C67_connect {P : Prog σ V E} {ops op mid op2 ops' who f v now c t cfg rv k q} (hp : Performs P (exec P ops) op who (.call .eager f v []))
    (hc : c = (exec P ops).nc) (hF : Forwards P f v (.ext now))
    (hm : Makes P (exec P (ops ++ op :: mid)) op2 t cfg rv k (some c)) (hg : cfg.guard = some q)
    (hu : (exec P ((ops ++ op :: mid) ++ op2 :: ops')).ub = none) (hq : (exec P ((ops ++ op :: mid) ++ op2 :: ops')).stack = [])
    (hone : (gots c (exec P ((ops ++ op :: mid) ++ op2 :: ops')).log).length ≤ 1)
    {x} (hx : .extRes c (.val x) ∈ (exec P ((ops ++ op :: mid) ++ op2 :: ops')).log) :
    (cbs t (exec P ((ops ++ op :: mid) ++ op2 :: ops')).log = [x] ∧ .guardDead t ∉ (exec P ((ops ++ op :: mid) ++ op2 :: ops')).log) ∨
    (cbs t (exec P ((ops ++ op :: mid) ++ op2 :: ops')).log = [] ∧ .guardDead t ∈ (exec P ((ops ++ op :: mid) ++ op2 :: ops')).log ∧
      .ctxDel q ∈ (exec P ((ops ++ op :: mid) ++ op2 :: ops')).log) := by
  have e : (ops ++ op :: mid) ++ op2 :: ops' = ops ++ op :: (mid ++ op2 :: ops') := by simp
  have hfin : .finished c (.val x) ∈ (exec P ((ops ++ op :: mid) ++ op2 :: ops')).log := by
    rw [e] at hu hq hx ⊢
    exact (C67_awaitable hp hc hF hu hq (.val x)).2 hx
  rcases C18_called_iff hm hg hu hq rfl hfin with ⟨y, n, h1, h2, h3, h4⟩ | h
  · have hn : n = 0 := by omega
    subst hn
    simp [readN] at h4
    subst h4
    exact .inl ⟨h1, h2⟩
  · exact .inr h

end QCoro.Task
