import Verif.Task.Convert
import Verif.Task.ThenExact

/-! C68: a task whose result is converted by `then` with a coroutine that returns at once: the constructors of `QmlTask` from `Task<T>` and
`Task<>` (`qml/qcoroqmltask.h:43-51,64-71`). -/
namespace QCoro.Task
variable {σ V E : Type}

/-- Callback `f` is `[](T &&x) -> Task<QVariant> { co_return conv(x); }` (`qcoroqmltask.h:45-47,68-70`). -/
def Converts (P : Prog σ V E) (f : σ) (conv : V → V) : Prop := ∀ x, (P.next f (.start [] x)).2 = .ret (conv x)

theorem Converts.plays {P : Prog σ V E} {f conv v x} (h : Converts P f conv) (hx : Plays P f (.start [] v) x) :
    x = ⟨f, none, []⟩ ∨ (x.last = some (.ret (conv v)) ∧ x.seen = [.ended (.val (conv v))]) := by
  induction hx with
  | start => exact .inl rfl
  | @turn x hp i hi ih =>
    rcases ih with rfl | ⟨h1, h2⟩
    · simp only [Fits] at hi; subst hi
      exact .inr ⟨by simp [Point.turn, h v], by simp [Point.turn, hears, h v, shows]⟩
    · rw [h1] at hi; exact hi.elim

theorem mem_ended {c : Nat} {cal r} {log : List (Ev V E)} : .ended r ∈ talk c cal log ↔ .finished c r ∈ log := by
  simp only [talk, List.mem_filterMap]
  constructor
  · rintro ⟨e, he, h⟩
    cases e <;> simp only [tev] at h <;> first | (simp at h; done) | skip
    all_goals
      split at h
      · rename_i hx; simp at h; try (subst h; subst hx; exact he)
      · simp at h
  · intro h; exact ⟨_, h, by simp [tev]⟩

/-- The coroutine the callback is: it can complete only with the converted value; and it has completed whenever it is not about to execute. -/
theorem converts_cb {P : Prog σ V E} {f conv v d} {s : State σ V E} {x} (hf : Converts P f conv) (hW : Where P d f (.start [] v) s x) :
    (∀ r, .finished d r ∈ s.log → r = .val (conv v)) ∧
    ((s.coro d).status = .running ∨ (s.coro d).status = .initial ∨ .finished d (.val (conv v)) ∈ s.log) := by
  rcases hf.plays hW.plays with rfl | ⟨h1, h2⟩
  · constructor
    · intro r hr
      rw [← mem_ended (cal := fun w => (s.wctx w).caller)] at hr
      rcases hW.now with ⟨_, _, _, h⟩ | ⟨_, _, h⟩ | ⟨_, _, _, h⟩ | ⟨_, _, _, h⟩ <;> rw [h] at hr <;> simp [hears] at hr
    · rcases hW.now with ⟨h | ⟨h, _⟩, _⟩ | ⟨⟨⟨o, h⟩, _⟩ | ⟨h, _⟩, _⟩ | ⟨⟨o, b, h⟩, _⟩ | ⟨⟨z, h⟩ | ⟨z, h⟩, _⟩
      · exact .inl h
      · exact .inr (.inl h)
      all_goals cases h
  · have hseen : talk d (fun w => (s.wctx w).caller) s.log = [.ended (.val (conv v))] := by
      rcases hW.now with ⟨_, h, _⟩ | ⟨_, _, h⟩ | ⟨_, _, _, h⟩ | ⟨_, _, _, h⟩
      · rw [h1] at h; exact h.elim
      all_goals (rw [h, h2])
    constructor
    · intro r hr
      rw [← mem_ended (cal := fun w => (s.wctx w).caller), hseen] at hr
      simpa using hr
    · right; right
      rw [← mem_ended (cal := fun w => (s.wctx w).caller), hseen]; simp

/-- C68. A task made with a converting callback (`QmlTask` from a `Task<T>`): it can complete only after the task, with the converted value
(of what is left of the result, if others awaited the same task before) or with the same exception. -/
theorem C68_outcome {P : Prog σ V E} {ops op ops' t cfg rv k d conv} (hm : Makes P (exec P ops) op t cfg rv k (some d))
    (hsrc : Same P ops op ops' t rv k (some d)) (hu : (exec P (ops ++ op :: ops')).ub = none)
    (hct : cfg.cbTask.isSome) (hg : cfg.guard = none) (he : cfg.err = none) (hcv : Converts P cfg.cb conv)
    {r} (hr : .finished t r ∈ (exec P (ops ++ op :: ops')).log) :
    (∃ v0 v n, .finished d (.val v0) ∈ (exec P (ops ++ op :: ops')).log ∧ n < (gots d (exec P (ops ++ op :: ops')).log).length ∧
      Res.val v = readN P n (.val v0 : Res V E) ∧ r = .val (conv v)) ∨
    (∃ e, .finished d (.exc e) ∈ (exec P (ops ++ op :: ops')).log ∧ r = .exc e) := by
  have hL := exec_linv P (ops ++ op :: ops')
  have hS := C15_story hm hu
  have hgot : ∃ r1, .got d r1 ∈ hist t (exec P (ops ++ op :: ops')).log := by
    have hf := mem_fins.2 hr
    rw [fins_hist] at hf
    generalize hist t (exec P (ops ++ op :: ops')).log = l at *
    cases hS with
    | idle => simp at hf
    | hung => simp [finOf] at hf
    | waits => simp [finOf] at hf
    | after d' r1 p tl hD hp htl =>
      have hdd : d' = d := by have := hD hsrc; simpa using this
      subst hdd
      exact ⟨r1, by rcases hp with rfl | rfl <;> simp⟩
  obtain ⟨r1, hgot⟩ := hgot
  obtain ⟨p1, e, p2, r0, h1, h2, h3, h4, h5⟩ := got_fins hL.ok hgot
  have hf0 : .finished d r0 ∈ (exec P (ops ++ op :: ops')).log := by
    rw [h1]; simp [mem_fins.1 (show r0 ∈ fins d p1 by rw [h4]; simp)]
  cases r0 with
  | exc e =>
    refine .inr ⟨e, hf0, ?_⟩
    exact ((C16_error_routing hm hsrc hu rfl hf0).2.2 (.inl he)).2 r hr
  | val v0 =>
    obtain ⟨v, d2, g1, g2, g3⟩ := C15_result_coroutine_exact hm hsrc hu hct hg rfl hf0 hr
    obtain ⟨v', x, g4, g5⟩ := cb_where hm hu g2
    have hv : v' = v := by
      have : v' ∈ cbs t (exec P (ops ++ op :: ops')).log := by
        simp only [cbs, List.mem_filterMap]; exact ⟨_, g4, by simp⟩
      rw [g1] at this; simpa using this
    subst hv
    have := (converts_cb hcv g5).1 r g3
    obtain ⟨pre, post, hl⟩ := List.append_of_mem g4
    obtain ⟨d', v0', e1, e2, n, e3, e4⟩ := C15_callback_value hm hsrc hu pre post v' hl
    cases e1
    have ga : ∀ a b : List (Ev V E), gots d (a ++ b) = gots d a ++ gots d b := by intro a b; simp [gots]
    refine .inl ⟨v0', v', n, ?_, ?_, e4, this⟩
    · rw [hl]; simp [e2]
    · rw [hl, ga]; simp; omega

/-- C68. … and it does complete: once the task has completed with value `v0`, which nobody else takes, and control is back in the event loop,
the converted task has completed with `conv v0`; if the task has failed, the converted task has failed with the same exception. -/
theorem C68_completes {P : Prog σ V E} {ops op ops' t cfg rv k d conv} (hm : Makes P (exec P ops) op t cfg rv k (some d))
    (hsrc : Same P ops op ops' t rv k (some d)) (hu : (exec P (ops ++ op :: ops')).ub = none) (hq : (exec P (ops ++ op :: ops')).stack = [])
    (hst : life t (exec P (ops ++ op :: ops')).log ≠ .initial)
    (hct : cfg.cbTask.isSome) (hg : cfg.guard = none) (he : cfg.err = none) (hcv : Converts P cfg.cb conv) :
    (∀ v0, .finished d (.val v0) ∈ (exec P (ops ++ op :: ops')).log → (gots d (exec P (ops ++ op :: ops')).log).length ≤ 1 →
      .finished t (.val (conv v0)) ∈ (exec P (ops ++ op :: ops')).log) ∧
    (∀ e, .finished d (.exc e) ∈ (exec P (ops ++ op :: ops')).log → .finished t (.exc e) ∈ (exec P (ops ++ op :: ops')).log) := by
  have hL := exec_linv P (ops ++ op :: ops')
  have hI := exec_inv P _ hu
  constructor
  · intro v0 hf0 hone
    have hfin : ∃ r, .finished t r ∈ (exec P (ops ++ op :: ops')).log := by
      obtain ⟨r, p, tl, hl, hp, ht, hend⟩ := C15_progress hm hsrc hu hq rfl (life_done_of_fin P hL.ok hf0) hst
      rcases hend with ⟨tl', r', rfl⟩ | ⟨v, d2, h1, rfl, h3⟩
      · exact ⟨r', mem_fins.1 (by rw [fins_hist, hl]; simp [finOf])⟩
      · exfalso
        have hcb : .cbTask t d2 ∈ (exec P (ops ++ op :: ops')).log := by
          have : HEv.cbTask d2 ∈ hist t (exec P (ops ++ op :: ops')).log := by rw [hl]; simp
          simp only [hist, List.mem_filterMap] at this
          obtain ⟨e, he, h⟩ := this
          cases e <;> simp only [hev] at h <;> first | (simp at h; done) | skip
          all_goals
            split at h
            · rename_i hx; simp at h; try (subst h; subst hx; exact he)
            · simp at h
        have hreg : t ∈ regs d2 (exec P (ops ++ op :: ops')).log := by
          have : HEv.reg d2 ∈ hist t (exec P (ops ++ op :: ops')).log := by rw [hl]; simp
          simp only [hist, List.mem_filterMap] at this
          obtain ⟨e, he, h⟩ := this
          cases e <;> simp only [hev] at h <;> first | (simp at h; done) | skip
          all_goals
            split at h
            · rename_i hx; simp at h; try (subst h; subst hx; simp only [regs, List.mem_filterMap]; exact ⟨_, he, by simp⟩)
            · simp at h
        obtain ⟨v', x, _, g5⟩ := cb_where hm hu hcb
        rcases (converts_cb hcv g5).2 with h | h | h
        · have := (hI.i2.i1.core.bodyR d2).2 h; rw [hq] at this; simp [bodies] at this
        · have hk := hI.i2.i1.core.initL d2 h
          have := ((C08_lazy_started_iff_awaited P _ hu d2 ((hL.kd d2 .lazy).2 ⟨g5.lt, hk⟩)).1).2 (by rw [hL.life]; exact h)
          rw [this] at hreg; simp at hreg
        · exact h3 (life_done_of_fin P hL.ok h)
    obtain ⟨r, hr⟩ := hfin
    rcases C68_outcome hm hsrc hu hct hg he hcv hr with ⟨w, v, n, h1, h2, h3, h4⟩ | ⟨e, h1, h2⟩
    · have hn : n = 0 := by omega
      subst hn
      simp [readN] at h3
      have := fins_of_mem P _ hf0
      rw [fins_of_mem P _ h1] at this
      simp at this
      rw [h4, h3, this] at hr
      exact hr
    · have := fins_of_mem P _ hf0
      rw [fins_of_mem P _ h1] at this
      simp at this
  · intro e hf0
    have := (C16_error_routing_progress hm hsrc hu hq hst rfl hf0).2 (.inl he)
    exact mem_fins.1 (by rw [this]; simp)

end QCoro.Task
