import Verif.Task.ThenMake
import Verif.Task.Props

/-!
C15–C18: continuations made by `then()` and `connect()`.  The vocabulary (`hist`, `Story`, `Tail`, `CbResult`,
`ErrResult`) is in `ThenSpec.lean`; which schedule item makes a continuation is `Makes` in `ThenMake.lean`.
-/
namespace QCoro.Task
variable {σ V E : Type}

def cbOf : HEv V E → Option V | .cb v => some v | _ => none
def errOf : HEv V E → Option E | .err e => some e | _ => none
def finOf : HEv V E → Option (Res V E) | .fin r => some r | _ => none

theorem cbs_hist (t) (log : List (Ev V E)) : cbs t log = (hist t log).filterMap cbOf := by
  unfold cbs hist; rw [List.filterMap_filterMap]; congr 1; funext e; cases e <;> simp [hev] <;> split <;> rfl
theorem errs_hist (t) (log : List (Ev V E)) : errs t log = (hist t log).filterMap errOf := by
  unfold errs hist; rw [List.filterMap_filterMap]; congr 1; funext e; cases e <;> simp [hev] <;> split <;> rfl
theorem fins_hist (t) (log : List (Ev V E)) : fins t log = (hist t log).filterMap finOf := by
  unfold fins hist; rw [List.filterMap_filterMap]; congr 1; funext e; cases e <;> simp [hev] <;> split <;> rfl

@[simp] theorem cbOf_got {d : Nat} {r : Res V E} {p} (h : Got d r p) : p.filterMap cbOf = [] := by
  rcases h with rfl | rfl <;> rfl
@[simp] theorem errOf_got {d : Nat} {r : Res V E} {p} (h : Got d r p) : p.filterMap errOf = [] := by
  rcases h with rfl | rfl <;> rfl
@[simp] theorem finOf_got {d : Nat} {r : Res V E} {p} (h : Got d r p) : p.filterMap finOf = [] := by
  rcases h with rfl | rfl <;> rfl

/-- C15–C18. For every program, schedule and way of making a continuation: what the continuation has done so far is one of
the stories of `ThenSpec.lean`. -/
theorem C15_story {P : Prog σ V E} {ops op ops' t cfg rv k h} (hm : Makes P (exec P ops) op t cfg rv k h)
    (hu : (exec P (ops ++ op :: ops')).ub = none) :
    Story P cfg (Src (Same P ops op ops' t rv k h) h) (hist t (exec P (ops ++ op :: ops')).log) := by
  obtain ⟨oo, hT⟩ := makes_exec hm hu
  obtain ⟨ph, _, hat, _⟩ := hT.at'
  exact hat.story

theorem tail_cbs {P : Prog σ V E} {cfg r tl} (h : Tail P cfg r tl) : tl.filterMap cbOf = [] ∨ ∃ v, r = .val v ∧ tl.filterMap cbOf = [v] := by
  cases h
  case taskGot hc hg => rcases hg with rfl | rfl <;> simp [cbOf]
  case taskFin hc hg => rcases hg with rfl | rfl <;> simp [cbOf]
  all_goals simp [cbOf]

theorem tail_errs {P : Prog σ V E} {cfg r tl} (h : Tail P cfg r tl) : tl.filterMap errOf = [] ∨ ∃ e f, r = .exc e ∧ cfg.err = some f ∧ P.isStd e = true ∧ tl.filterMap errOf = [e] := by
  cases h
  case taskGot hc hg => rcases hg with rfl | rfl <;> simp [errOf]
  case taskFin hc hg => rcases hg with rfl | rfl <;> simp [errOf]
  case err f he hs => exact .inr ⟨_, f, rfl, he, hs, rfl⟩
  case errFin f r he hs h => exact .inr ⟨_, f, rfl, he, hs, rfl⟩
  all_goals simp [errOf]

theorem story_cbs {P : Prog σ V E} {cfg D l} (h : Story P cfg D l) : l.filterMap cbOf = [] ∨ ∃ d v, D (some d) ∧ HEv.got d (.val v) ∈ l ∧ l.filterMap cbOf = [v] := by
  cases h with
  | idle => simp
  | hung => simp [cbOf]
  | waits => simp [cbOf]
  | after d r p tl h hp ht =>
    rw [List.filterMap_append, cbOf_got hp]
    rcases tail_cbs ht with h1 | ⟨v, rfl, h1⟩
    · simp [h1]
    · right; refine ⟨d, v, h, ?_, by simp [h1]⟩
      rcases hp with rfl | rfl <;> simp

theorem story_errs {P : Prog σ V E} {cfg D l} (h : Story P cfg D l) : l.filterMap errOf = [] ∨
    ∃ d e f, D (some d) ∧ cfg.err = some f ∧ P.isStd e = true ∧ HEv.got d (.exc e) ∈ l ∧ l.filterMap errOf = [e] := by
  cases h with
  | idle => simp
  | hung => simp [errOf]
  | waits => simp [errOf]
  | after d r p tl h hp ht =>
    rw [List.filterMap_append, errOf_got hp]
    rcases tail_errs ht with h1 | ⟨e, f, rfl, hf, hs, h1⟩
    · simp [h1]
    · right; refine ⟨d, e, f, h, hf, hs, ?_, by simp [h1]⟩
      rcases hp with rfl | rfl <;> simp

/-- C15. The callback is called at most once. -/
theorem C15_callback_at_most_once {P : Prog σ V E} {ops op ops' t cfg rv k h} (hm : Makes P (exec P ops) op t cfg rv k h)
    (hu : (exec P (ops ++ op :: ops')).ub = none) : (cbs t (exec P (ops ++ op :: ops')).log).length ≤ 1 := by
  rw [cbs_hist]
  rcases story_cbs (C15_story hm hu) with h | ⟨_, _, _, _, h⟩ <;> simp [h]

/-- What a continuation's `co_await` delivers is what is left of the outcome of the task. -/
theorem got_fins {P : Prog σ V E} {log : List (Ev V E)} (hok : Chk (legal P) log) {t d r} (h : HEv.got d r ∈ hist t log) :
    ∃ pre e post r0, log = pre ++ e :: post ∧ (e = .gotReady t d r ∨ e = .gotWoken t d r) ∧ life d pre = .done ∧ fins d pre = [r0] ∧
      r = readN P (gots d pre).length r0 := by
  simp only [hist, List.mem_filterMap] at h
  obtain ⟨e, he, hh⟩ := h
  obtain ⟨pre, post, h3, h4⟩ := hok.mem he
  cases e <;> simp only [hev] at hh <;> first | (simp at hh; done) | (split at hh <;> simp at hh)
  · rename_i a d' r' ha
    obtain ⟨rfl, rfl⟩ := hh; subst ha
    obtain ⟨_, h5, _, r0, h6, h7⟩ := h4
    exact ⟨pre, _, post, r0, h3, .inl rfl, h5, h6, h7⟩
  · rename_i a d' r' ha
    obtain ⟨rfl, rfl⟩ := hh; subst ha
    obtain ⟨_, h5, _, _, r0, h6, h7⟩ := h4
    exact ⟨pre, _, post, r0, h3, .inr rfl, h5, h6, h7⟩

theorem first_split {α β : Type} {f : α → Option β} {p q l1 l2 : List α} {x y : α} {b : β} (hy : f y = some b)
    (hp : p.filterMap f = []) (hx : f x = some b) (h1 : l1.filterMap f = []) (h : p ++ x :: q = l1 ++ y :: l2) : p = l1 := by
  have tw : ∀ (a c : List α) z, f z = some b → a.filterMap f = [] → (a ++ z :: c).takeWhile (fun e => (f e).isNone) = a := by
    intro a c z hz ha
    induction a with
    | nil => simp [hz]
    | cons e a ih =>
      cases he : f e with
      | none => simp [he] at ha ⊢; exact ih (by simpa using ha)
      | some w => simp [he] at ha
  rw [← tw p q x hx hp, h, tw l1 l2 y hy h1]

/-- The part of the trace before the callback contains the whole `co_await`. -/
theorem cb_pos {P : Prog σ V E} {cfg D} {l1 l2 : List (HEv V E)} {v} (h : Story P cfg D (l1 ++ .cb v :: l2)) :
    ∃ d, D (some d) ∧ Got d (.val v) l1 := by
  have hc := story_cbs h
  generalize hl : l1 ++ .cb v :: l2 = l at h hc
  have h1 : l1.filterMap cbOf = [] := by
    rw [← hl, List.filterMap_append] at hc
    simp [cbOf] at hc
    obtain ⟨_, _, _, _, hc⟩ := hc
    cases hx : l1.filterMap cbOf with
    | nil => rfl
    | cons a b => simp [hx] at hc
  cases h with
  | idle => simp at hl
  | hung => cases l1 <;> simp at hl
  | waits => cases l1 <;> simp at hl
  | after d r p tl h hp ht =>
    have hv : ∃ tl', tl = .cb v :: tl' ∧ r = .val v := by
      have hm : HEv.cb v ∈ tl := by
        have : HEv.cb v ∈ p ++ tl := by rw [← hl]; simp
        rcases List.mem_append.1 this with hm | hm
        · rcases hp with rfl | rfl <;> simp at hm
        · exact hm
      cases ht <;> simp at hm <;> try (subst hm; simp; done)
      case taskGot hc hg => rcases hg with rfl | rfl <;> simp at hm <;> subst hm <;> simp
      case taskFin hc hg => rcases hg with rfl | rfl <;> simp at hm <;> subst hm <;> simp
    obtain ⟨tl', rfl, rfl⟩ := hv
    have : p = l1 := first_split (f := cbOf) (b := v) rfl (cbOf_got hp) rfl h1 hl.symm
    subst this
    exact ⟨d, h, hp⟩

/-- C15. The callback is called only after the task completed successfully, and with the task's value (what is left of
it, if others awaited the same task before; with the very value if nobody did). -/
theorem C15_callback_value {P : Prog σ V E} {ops op ops' t cfg rv k h} (hm : Makes P (exec P ops) op t cfg rv k h)
    (hsrc : Same P ops op ops' t rv k h) (hu : (exec P (ops ++ op :: ops')).ub = none) (pre post v)
    (hl : (exec P (ops ++ op :: ops')).log = pre ++ .cb t v :: post) :
    ∃ d v0, h = some d ∧ .finished d (.val v0) ∈ pre ∧ ∃ n, n < (gots d pre).length ∧ Res.val v = readN P n (.val v0 : Res V E) := by
  have hS := C15_story hm hu
  have hok := (exec_linv P (ops ++ op :: ops')).ok
  rw [hl] at hS hok
  rw [show pre ++ .cb t v :: post = (pre ++ [.cb t v]) ++ post by simp, hist_append, hist_snoc] at hS
  simp only [hev, if_true, Option.toList, List.append_assoc, List.singleton_append] at hS
  obtain ⟨d, hD, hg⟩ := cb_pos hS
  obtain ⟨p1, e, p2, r0, h1, h2, h3, h4, h5⟩ := got_fins hok.prefix (t := t) (d := d) (r := .val v) (by rcases hg with hg | hg <;> rw [hg] <;> simp)
  have hr0 : ∃ v0, r0 = .val v0 := by
    cases r0 with
    | val v0 => exact ⟨v0, rfl⟩
    | exc x =>
      have : ∀ n, readN P n (.exc x : Res V E) = .exc x := by
        intro n; induction n with
        | zero => rfl
        | succ n ih => simp [readN, ih, afterRead]
      rw [this] at h5; simp at h5
  obtain ⟨v0, rfl⟩ := hr0
  refine ⟨d, v0, (hD hsrc).symm, ?_, (gots d p1).length, ?_, h5⟩
  · have : Res.val v0 ∈ fins d p1 := by rw [h4]; simp
    simp only [fins, List.mem_filterMap] at this
    obtain ⟨x, hx, hx2⟩ := this
    cases x <;> simp at hx2
    obtain ⟨rfl, rfl⟩ := hx2
    rw [h1]; simp [hx]
  · rw [h1, show p1 ++ e :: p2 = (p1 ++ [e]) ++ p2 by simp]
    have ga : ∀ a b : List (Ev V E), gots d (a ++ b) = gots d a ++ gots d b := by intro a b; simp [gots]
    rw [ga, gots_snoc]
    rcases h2 with rfl | rfl <;> simp <;> omega

theorem mem_fins {d : Nat} {r : Res V E} {log : List (Ev V E)} : r ∈ fins d log ↔ .finished d r ∈ log := by
  simp only [fins, List.mem_filterMap]
  constructor
  · rintro ⟨x, hx, hx2⟩
    cases x <;> simp at hx2
    obtain ⟨rfl, rfl⟩ := hx2; exact hx
  · intro h; exact ⟨_, h, by simp⟩

theorem fins_of_mem (P : Prog σ V E) (ops) {d r} (h : .finished d r ∈ (exec P ops).log) : fins d (exec P ops).log = [r] := by
  have h1 := (exec_linv P ops).rs d
  have h2 := mem_fins.2 h
  cases hr : ((exec P ops).coro d).result with
  | none => rw [hr] at h1; rw [h1.1] at h2; simp at h2
  | some x => rw [hr] at h1; obtain ⟨r0, h3, _⟩ := h1; rw [h3] at h2; simp at h2; rw [h3, h2]

theorem readN_val (P : Prog σ V E) (v : V) (n) : ∃ v', readN P n (.val v : Res V E) = .val v' := by
  induction n with
  | zero => exact ⟨v, rfl⟩
  | succ n ih => obtain ⟨w, h⟩ := ih; exact ⟨P.mv w, by simp [readN, h, afterRead]⟩

/-- The outcome a continuation saw is what is left of the recorded outcome. -/
theorem got_outcome {P : Prog σ V E} {ops t d r r0} (hg : HEv.got d r ∈ hist t (exec P ops).log) (hf : .finished d r0 ∈ (exec P ops).log) :
    ∃ n, n < (gots d (exec P ops).log).length ∧ r = readN P n r0 := by
  have hfin := fins_of_mem P ops hf
  obtain ⟨p1, e, p2, r1, h1, h2, h3, h4, h5⟩ := got_fins (exec_linv P ops).ok hg
  have fa : ∀ a b : List (Ev V E), fins d (a ++ b) = fins d a ++ fins d b := by intro a b; simp [fins]
  have ga : ∀ a b : List (Ev V E), gots d (a ++ b) = gots d a ++ gots d b := by intro a b; simp [gots]
  rw [h1, fa, h4] at hfin
  simp at hfin
  refine ⟨(gots d p1).length, ?_, by rw [h5, hfin.1]⟩
  rw [h1, show p1 ++ e :: p2 = (p1 ++ [e]) ++ p2 by simp, ga, gots_snoc]
  rcases h2 with rfl | rfl <;> simp <;> omega

/-- C15, C16. Progress: when the task has completed and control is back in the event loop, a continuation that was started
has got the outcome and has completed too, unless its callback is a coroutine that has not completed. -/
theorem C15_progress {P : Prog σ V E} {ops op ops' t cfg rv k h} (hm : Makes P (exec P ops) op t cfg rv k h)
    (hsrc : Same P ops op ops' t rv k h) (hu : (exec P (ops ++ op :: ops')).ub = none) (hq : (exec P (ops ++ op :: ops')).stack = [])
    {d} (hd : h = some d) (hdn : life d (exec P (ops ++ op :: ops')).log = .done) (hst : life t (exec P (ops ++ op :: ops')).log ≠ .initial) :
    ∃ r p tl, hist t (exec P (ops ++ op :: ops')).log = p ++ tl ∧ Got d r p ∧ Tail P cfg r tl ∧
      ((∃ tl' r', tl = tl' ++ [.fin r']) ∨
       ∃ v d2, r = .val v ∧ tl = [.cb v, .cbTask d2, .reg d2] ∧ life d2 (exec P (ops ++ op :: ops')).log ≠ .done) := by
  obtain ⟨oo, hT⟩ := makes_exec hm hu
  have hI := exec_inv P _ hu
  have hL := exec_linv P (ops ++ op :: ops')
  generalize exec P (ops ++ op :: ops') = s at *
  have hco := hI.i2.i1.core
  rw [hL.life] at hdn hst
  have hnr : ∀ c, (s.coro c).status ≠ .running := by
    intro c hc; have := (hco.bodyR c).2 hc; rw [hq] at this; simp [bodies] at this
  have hnw : ∀ c, (s.coro c).status = .done → ∀ a, (s.coro a).status ≠ .waitTask c := by
    intro c hc a ha
    have h1 := (hco.pendR c a).2 ha
    simp only [pend, hc, if_true] at h1
    have h2 : (s.coro c).selfRef = true := by
      cases hs : (s.coro c).selfRef with
      | true => rfl
      | false => rw [hco.finE c hs] at h1; simp at h1
    have := (hco.finR c).2 ⟨hc, h2⟩
    rw [hq] at this; simp [finals] at this
  obtain ⟨ph, hcode, hat, _⟩ := hT.at'
  rcases hat with ⟨_, d', r, p, tl, hD, hp, ht, hf, hl⟩ | hat
  · have : some d' = some d := by rw [hD hsrc, hd]
    cases this
    exact ⟨r, p, tl, hl, hp, ht, .inl hf⟩
  · cases ph with
    | init => rcases hat.2 with h1 | h1
              · exact absurd h1 hst
              · exact absurd h1 (hnr t)
    | waiting =>
      rcases hat with ⟨_, _, hD⟩ | ⟨d', hD, _, hw⟩ | ⟨_, _, _, _, h1, _⟩
      · have := hD hsrc; rw [hd] at this; simp at this
      · have : some d' = some d := by rw [hD hsrc, hd]
        cases this
        exact absurd hw (hnw d hdn t)
      · exact absurd h1 (hnr t)
    | cbAwait o2 =>
      obtain ⟨hc, d', p, v, d2, hD, hp, _, ⟨hw, hl⟩ | ⟨_, _, h1, _⟩⟩ := hat
      · have : some d' = some d := by rw [hD hsrc, hd]
        cases this
        refine ⟨.val v, p, _, hl, hp, .taskReg v d2 hc, .inr ⟨v, d2, rfl, rfl, ?_⟩⟩
        rw [hL.life]; intro hx; exact hnw d2 hx t hw
      · exact absurd h1 (hnr t)
    | guard v => exact absurd hat.2.2.1 (hnr t)
    | cbStart v => exact absurd hat.2.1 (hnr t)
    | cbRun x => exact absurd hat.2.1 (hnr t)
    | cbCalled => exact absurd hat.2.1 (hnr t)
    | cbDrop r => exact absurd hat.2.1 (hnr t)
    | errStart f e => exact absurd hat.2.2.1 (hnr t)
    | errRun x => obtain ⟨_, _, _, _, h1, _⟩ := hat; exact absurd h1 (hnr t)
    | over => exact hat.elim

/-- C15. Exactly once: once the task has completed successfully and control is back in the event loop, the callback has
been called exactly once, with the task's value. -/
theorem C15_callback_exactly_once {P : Prog σ V E} {ops op ops' t cfg rv k h} (hm : Makes P (exec P ops) op t cfg rv k h)
    (hsrc : Same P ops op ops' t rv k h) (hu : (exec P (ops ++ op :: ops')).ub = none) (hq : (exec P (ops ++ op :: ops')).stack = [])
    (hst : life t (exec P (ops ++ op :: ops')).log ≠ .initial) (hg : cfg.guard = none)
    {d v0} (hd : h = some d) (hf : .finished d (.val v0) ∈ (exec P (ops ++ op :: ops')).log) :
    ∃ v n, cbs t (exec P (ops ++ op :: ops')).log = [v] ∧ n < (gots d (exec P (ops ++ op :: ops')).log).length ∧
      Res.val v = readN P n (.val v0 : Res V E) := by
  have hdn : life d (exec P (ops ++ op :: ops')).log = .done := by
    have h1 := fins_of_mem P _ hf
    have h2 := (exec_linv P (ops ++ op :: ops')).rs d
    rw [(exec_linv P (ops ++ op :: ops')).life]
    refine ((exec_inv P _ hu).i2.i1.core.resD d).1 ?_
    cases hr : ((exec P (ops ++ op :: ops')).coro d).result with
    | none => rw [hr] at h2; rw [h2.1] at h1; simp at h1
    | some x => rfl
  obtain ⟨r, p, tl, hl, hp, ht, hend⟩ := C15_progress hm hsrc hu hq hd hdn hst
  have hgot : HEv.got d r ∈ hist t (exec P (ops ++ op :: ops')).log := by
    rw [hl]; rcases hp with rfl | rfl <;> simp
  obtain ⟨n, hn, hr⟩ := got_outcome hgot hf
  obtain ⟨v, hv⟩ := readN_val P v0 n
  rw [hv] at hr; subst hr
  refine ⟨v, n, ?_, hn, hv.symm⟩
  rw [cbs_hist, hl, List.filterMap_append, cbOf_got hp, List.nil_append]
  rcases hend with ⟨tl', r', rfl⟩ | ⟨v', d2, h1, rfl, _⟩
  · rcases tail_cbs ht with h1 | ⟨v', h2, h1⟩
    · exfalso
      generalize htl : tl' ++ [HEv.fin r'] = tl at ht h1
      cases ht
      case cbFin => simp [cbOf] at h1
      case taskFin => simp [cbOf] at h1
      case deadFin hg' => rw [hg] at hg'; simp at hg'
      case taskGot hp' => simp [cbOf] at h1
      case none => simp at htl
      case cb => simp [cbOf] at h1
      case task => simp [cbOf] at h1
      case taskReg => simp [cbOf] at h1
      case dead hg' => rw [hg] at hg'; simp at hg'
    · cases h2; exact h1
  · cases h1; simp [cbOf]

/-- C15. With an ordinary callback, the resulting task completes with what the callback returned or threw. -/
theorem C15_result {P : Prog σ V E} {ops op ops' t cfg rv k h} (hm : Makes P (exec P ops) op t cfg rv k h)
    (hsrc : Same P ops op ops' t rv k h) (hu : (exec P (ops ++ op :: ops')).ub = none) (hc : cfg.cbTask = none) (hg : cfg.guard = none)
    {d v0 r} (hd : h = some d) (hf : .finished d (.val v0) ∈ (exec P (ops ++ op :: ops')).log)
    (ht : .finished t r ∈ (exec P (ops ++ op :: ops')).log) :
    ∃ v, cbs t (exec P (ops ++ op :: ops')).log = [v] ∧ EndsWith P cfg.cb (.start [] v) r := by
  have hS := C15_story hm hu
  have hft := mem_fins.2 ht
  rw [fins_hist] at hft
  have hout : ∀ d' r', HEv.got d' r' ∈ hist t (exec P (ops ++ op :: ops')).log → d' = d → ∃ v, r' = .val v := by
    rintro d' r' h1 rfl
    obtain ⟨n, _, h2⟩ := got_outcome h1 hf
    obtain ⟨v, hv⟩ := readN_val P v0 n
    exact ⟨v, by rw [h2, hv]⟩
  rw [cbs_hist]
  generalize hist t (exec P (ops ++ op :: ops')).log = l at *
  cases hS with
  | idle => simp at hft
  | hung => simp [finOf] at hft
  | waits => simp [finOf] at hft
  | after d' r1 p tl hD hp htl =>
    have hdd : d' = d := by have := hD hsrc; rw [hd] at this; simpa using this
    obtain ⟨v, rfl⟩ := hout d' r1 (by rcases hp with rfl | rfl <;> simp) hdd
    rw [List.filterMap_append, finOf_got hp, List.nil_append] at hft
    rw [List.filterMap_append, cbOf_got hp, List.nil_append]
    cases htl <;> simp [finOf] at hft <;> try (simp_all; done)
    case cbFin hx =>
      subst hft
      obtain ⟨r', h1, h2⟩ := hx
      refine ⟨v, by simp [cbOf], ?_⟩
      rw [hg] at h2; simp at h2; rw [h2]; exact h1

/-- C15. With a callback that is itself a coroutine, the resulting task completes with what that coroutine completed
with. -/
theorem C15_result_coroutine {P : Prog σ V E} {ops op ops' t cfg rv k h} (hm : Makes P (exec P ops) op t cfg rv k h)
    (hsrc : Same P ops op ops' t rv k h) (hu : (exec P (ops ++ op :: ops')).ub = none) (hc : cfg.cbTask.isSome) (hg : cfg.guard = none)
    {d v0 r} (hd : h = some d) (hf : .finished d (.val v0) ∈ (exec P (ops ++ op :: ops')).log)
    (ht : .finished t r ∈ (exec P (ops ++ op :: ops')).log) :
    ∃ v d2 r2 n, cbs t (exec P (ops ++ op :: ops')).log = [v] ∧ .cbTask t d2 ∈ (exec P (ops ++ op :: ops')).log ∧
      .finished d2 r2 ∈ (exec P (ops ++ op :: ops')).log ∧ n < (gots d2 (exec P (ops ++ op :: ops')).log).length ∧ r = readN P n r2 := by
  have hS := C15_story hm hu
  have hok := (exec_linv P (ops ++ op :: ops')).ok
  have hft := mem_fins.2 ht
  rw [fins_hist] at hft
  have hout : ∀ d' r', HEv.got d' r' ∈ hist t (exec P (ops ++ op :: ops')).log → d' = d → ∃ v, r' = .val v := by
    rintro d' r' h1 rfl
    obtain ⟨n, _, h2⟩ := got_outcome h1 hf
    obtain ⟨v, hv⟩ := readN_val P v0 n
    exact ⟨v, by rw [h2, hv]⟩
  have hct : ∀ d2, HEv.cbTask d2 ∈ hist t (exec P (ops ++ op :: ops')).log → Ev.cbTask t d2 ∈ (exec P (ops ++ op :: ops')).log := by
    intro d2 h2
    simp only [hist, List.mem_filterMap] at h2
    obtain ⟨e, he, hh⟩ := h2
    cases e <;> simp only [hev] at hh <;> first | (simp at hh; done) | (split at hh <;> simp at hh)
    rename_i a b hab; subst hab; subst hh; exact he
  have hg2 : ∀ d2 r', HEv.got d2 r' ∈ hist t (exec P (ops ++ op :: ops')).log → ∃ r2 n, .finished d2 r2 ∈ (exec P (ops ++ op :: ops')).log ∧
      n < (gots d2 (exec P (ops ++ op :: ops')).log).length ∧ r' = readN P n r2 := by
    intro d2 r' h1
    obtain ⟨p1, e, p2, r1, h2, h3, h4, h5, h6⟩ := got_fins hok h1
    have hm1 : .finished d2 r1 ∈ (exec P (ops ++ op :: ops')).log := by
      rw [h2]; simp [mem_fins.1 (show r1 ∈ fins d2 p1 by rw [h5]; simp)]
    obtain ⟨n, hn, hr⟩ := got_outcome h1 hm1
    exact ⟨r1, n, hm1, hn, hr⟩
  rw [cbs_hist]
  generalize hist t (exec P (ops ++ op :: ops')).log = l at *
  cases hS with
  | idle => simp at hft
  | hung => simp [finOf] at hft
  | waits => simp [finOf] at hft
  | after d' r1 p tl hD hp htl =>
    have hdd : d' = d := by have := hD hsrc; rw [hd] at this; simpa using this
    obtain ⟨v, rfl⟩ := hout d' r1 (by rcases hp with rfl | rfl <;> simp) hdd
    rw [List.filterMap_append, finOf_got hp, List.nil_append] at hft
    rw [List.filterMap_append, cbOf_got hp, List.nil_append]
    cases htl
    case taskFin d2 r' p2 hc' hgot =>
      rw [List.filterMap_append, List.filterMap_append, finOf_got hgot] at hft
      simp [finOf] at hft
      subst hft
      obtain ⟨r2, n, h1, h2, h3⟩ := hg2 d2 r (by rcases hgot with rfl | rfl <;> simp)
      refine ⟨v, d2, r2, n, ?_, hct d2 (by simp), h1, h2, h3⟩
      rw [List.filterMap_append, List.filterMap_append, cbOf_got hgot]; simp [cbOf]
    case taskGot d2 r' p2 hc' hgot =>
      rw [List.filterMap_append, finOf_got hgot] at hft; simp [finOf] at hft
    all_goals (simp [finOf] at hft; try simp_all)

/-- C16. Error routing, safety: if the task failed with `e`, the callback is never called; with an error callback and an
exception derived from std::exception, the error callback is called at most once, with `e`, and the resulting task
completes only after that, with a default value or what the error callback threw; otherwise no callback at all is called
and the resulting task can only fail with `e` itself. -/
theorem C16_error_routing {P : Prog σ V E} {ops op ops' t cfg rv k h} (hm : Makes P (exec P ops) op t cfg rv k h)
    (hsrc : Same P ops op ops' t rv k h) (hu : (exec P (ops ++ op :: ops')).ub = none)
    {d e} (hd : h = some d) (hf : .finished d (.exc e) ∈ (exec P (ops ++ op :: ops')).log) :
    let log := (exec P (ops ++ op :: ops')).log
    cbs t log = [] ∧
    (∀ f, cfg.err = some f → P.isStd e = true →
      (errs t log = [] ∨ errs t log = [e]) ∧ ∀ r, .finished t r ∈ log → errs t log = [e] ∧ ErrResult P f e r) ∧
    (cfg.err = none ∨ P.isStd e = false → errs t log = [] ∧ ∀ r, .finished t r ∈ log → r = .exc e) := by
  intro log
  have hS := C15_story hm hu
  have hout : ∀ d' r', HEv.got d' r' ∈ hist t log → d' = d → r' = .exc e := by
    rintro d' r' h1 rfl
    obtain ⟨n, _, h2⟩ := got_outcome h1 hf
    rw [h2, readN_exc]
  have hfm : ∀ r, .finished t r ∈ log ↔ r ∈ (hist t log).filterMap finOf := by
    intro r; rw [← fins_hist, mem_fins]
  rw [cbs_hist, errs_hist]
  simp only [hfm]
  change Story _ _ _ (hist t log) at hS
  generalize hist t log = l at *
  cases hS with
  | idle => simp
  | hung => simp [cbOf, errOf, finOf]
  | waits => simp [cbOf, errOf, finOf]
  | after d' r1 p tl hD hp htl =>
    have hdd : d' = d := by have := hD hsrc; rw [hd] at this; simpa using this
    have hr1 := hout d' r1 (by rcases hp with rfl | rfl <;> simp) hdd
    subst hr1
    simp only [List.filterMap_append, finOf_got hp, cbOf_got hp, errOf_got hp, List.nil_append]
    cases htl
    case none => simp
    case err f he hs => simp [cbOf, errOf, finOf, he, hs]
    case errFin f r he hs hr =>
      simp [cbOf, errOf, finOf, he, hs]
      exact hr
    case through hx =>
      simp [cbOf, errOf, finOf]
      intro f hf hs
      rcases hx with h | h <;> simp_all

/-- C16. Error routing, progress: once the task has failed and control is back in the event loop, the resulting task has
completed; in the error callback case the error callback has been called exactly once. -/
theorem C16_error_routing_progress {P : Prog σ V E} {ops op ops' t cfg rv k h} (hm : Makes P (exec P ops) op t cfg rv k h)
    (hsrc : Same P ops op ops' t rv k h) (hu : (exec P (ops ++ op :: ops')).ub = none) (hq : (exec P (ops ++ op :: ops')).stack = [])
    (hst : life t (exec P (ops ++ op :: ops')).log ≠ .initial)
    {d e} (hd : h = some d) (hf : .finished d (.exc e) ∈ (exec P (ops ++ op :: ops')).log) :
    let log := (exec P (ops ++ op :: ops')).log
    (∀ f, cfg.err = some f → P.isStd e = true → ∃ r, errs t log = [e] ∧ fins t log = [r] ∧ ErrResult P f e r) ∧
    (cfg.err = none ∨ P.isStd e = false → fins t log = [.exc e]) := by
  intro log
  have hdn : life d (exec P (ops ++ op :: ops')).log = .done := by
    have h1 := fins_of_mem P _ hf
    have h2 := (exec_linv P (ops ++ op :: ops')).rs d
    rw [(exec_linv P (ops ++ op :: ops')).life]
    refine ((exec_inv P _ hu).i2.i1.core.resD d).1 ?_
    cases hr : ((exec P (ops ++ op :: ops')).coro d).result with
    | none => rw [hr] at h2; rw [h2.1] at h1; simp at h1
    | some x => rfl
  obtain ⟨r, p, tl, hl, hp, ht, hend⟩ := C15_progress hm hsrc hu hq hd hdn hst
  have hgot : HEv.got d r ∈ hist t (exec P (ops ++ op :: ops')).log := by
    rw [hl]; rcases hp with rfl | rfl <;> simp
  obtain ⟨n, hn, hr⟩ := got_outcome hgot hf
  rw [readN_exc] at hr; subst hr
  obtain ⟨_, h2, h3⟩ := C16_error_routing hm hsrc hu hd hf
  have hfin : ∃ r', .finished t r' ∈ log := by
    rcases hend with ⟨tl', r', rfl⟩ | ⟨v', d2, h1, rfl, _⟩
    · refine ⟨r', mem_fins.1 ?_⟩
      show r' ∈ fins t (exec P (ops ++ op :: ops')).log
      rw [fins_hist, hl]; simp [finOf]
    · simp at h1
  obtain ⟨r', hr'⟩ := hfin
  have hfs := fins_of_mem P _ hr'
  refine ⟨fun f hf' hs => ⟨r', ((h2 f hf' hs).2 r' hr').1, hfs, ((h2 f hf' hs).2 r' hr').2⟩, fun hx => ?_⟩
  show fins t (exec P (ops ++ op :: ops')).log = _
  rw [hfs, (h3 hx).2 r' hr']

end QCoro.Task
