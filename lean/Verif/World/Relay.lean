import Verif.World.Props
import Verif.Task.Told
import Verif.Task.WaitProps
/-! # C87: the coroutine `qCoro()` itself, and who awaits it -/
set_option linter.unusedSimpArgs false
namespace QCoro.Task
variable {σ V E : Type}

/-- `f` is the body of `qCoro(obj, signal[, timeout])`: `co_return co_await <awaitable>` (`qcoro/core/qcorosignal.h:353-375`); like the body of any other function that returns what it awaits. -/
def Relay (P : Prog σ V E) (f : σ) : Prop :=
  ∃ f1, f1 ≠ f ∧ (∀ i, ∃ now, P.next f i = (f1, .awaitExt now)) ∧ (∀ v, (P.next f1 (.res (.val v))).2 = .ret v) ∧ ∀ e, (P.next f1 (.res (.exc e))).2 = .throw e

/-- Where such a body can be. -/
theorem relay_points {P : Prog σ V E} {f f1 : σ} (h1 : ∀ i, ∃ now, P.next f i = (f1, .awaitExt now)) (h2 : ∀ v, (P.next f1 (.res (.val v))).2 = .ret v)
    (h3 : ∀ e, (P.next f1 (.res (.exc e))).2 = .throw e) {i0 : Resp V E} {x : Point σ V E} (h : Plays P f i0 x) :
    x = ⟨f, none, []⟩ ∨ (∃ now, x = ⟨f1, some (.awaitExt now), []⟩) ∨
    ∃ r, x.seen = [.heard r, .ended r] ∧ ((∃ v, r = .val v ∧ x.last = some (.ret v)) ∨ ∃ e, r = .exc e ∧ x.last = some (.throw e)) := by
  induction h with
  | start => exact .inl rfl
  | @turn x _ i hi ih =>
    rcases ih with rfl | ⟨now, rfl⟩ | ⟨r, _, ⟨v, rfl, hl⟩ | ⟨e, rfl, hl⟩⟩
    · obtain ⟨now, hn⟩ := h1 i
      exact .inr (.inl ⟨now, by simp [Point.turn, hn, hears, shows]⟩)
    · have : ∃ r, i = .res r := by
        cases now with
        | none => exact hi
        | some r => exact ⟨r, hi⟩
      obtain ⟨r, rfl⟩ := this
      right; right
      cases r with
      | val v => exact ⟨.val v, by simp [Point.turn, hears, shows, h2], .inl ⟨v, rfl, by simp [Point.turn, h2]⟩⟩
      | exc e => exact ⟨.exc e, by simp [Point.turn, hears, shows, h3], .inr ⟨e, rfl, by simp [Point.turn, h3]⟩⟩
    · rw [hl] at hi; exact absurd hi (by simp [Fits])
    · rw [hl] at hi; exact absurd hi (by simp [Fits])

theorem log_awaitExt (P : Prog σ V E) (s : State σ V E) (c : Nat) (now : Option (Res V E)) : .extSusp c ∈ (doAct P s c (.u (.awaitExt now))).log := by
  cases now <;> simp [doAct, doUser, State.pop, State.emit, State.setCoro, State.reply]

/-- It has not begun, or it has reached its `co_await`. -/
theorem relay_susp {P : Prog σ V E} {ops op ops' who k f v args} (hp : Performs P (exec P ops) op who (.call k f v args)) (hr : Relay P f)
    (hu : (exec P (ops ++ op :: ops')).ub = none) :
    Where P (exec P ops).nc f (.start (List.range' (exec P ops).no args.length) v) (exec P (ops ++ op :: ops')) ⟨f, none, []⟩ ∨
    .extSusp (exec P ops).nc ∈ (exec P (ops ++ op :: ops')).log := by
  obtain ⟨f1, hne, h1, h2, h3⟩ := hr
  have e0 : ops ++ op :: ops' = (ops ++ [op]) ++ ops' := by simp
  rw [e0] at hu ⊢
  clear e0
  induction ops' using QCoro.snocInd with
  | nil =>
    have hu1 : (exec P (ops ++ [op])).ub = none := by simpa using hu
    have hu0 : (exec P ops).ub = none := hp.1
    rw [List.append_nil]
    have hI' := exec_inv P _ hu1
    rw [exec_snoc] at hu1 hI' ⊢
    exact .inl (where_born (exec_inv P _ hu0) (exec_linv P _) (exec_fresh P _ hu0) hp hu1 hI')
  | snoc l o ih =>
    rw [← List.append_assoc] at hu ⊢
    have hu0 : (exec P ((ops ++ [op]) ++ l)).ub = none := exec_ub_prefix _ _ hu
    have hI := exec_inv P _ hu0
    have hfr := exec_fresh P _ hu0
    have hI' := exec_inv P _ hu
    rw [exec_snoc] at hu hI' ⊢
    rcases ih hu0 with hw | hx
    · generalize exec P ((ops ++ [op]) ++ l) = s at *
      have hst : (s.coro (exec P ops).nc).status = .running ∨ (s.coro (exec P ops).nc).status = .initial := by
        rcases hw.now with ⟨h, _⟩ | ⟨⟨⟨_, h⟩, _⟩ | ⟨h, _⟩, _⟩ | ⟨⟨_, _, h⟩, _⟩ | ⟨⟨_, h⟩ | ⟨_, h⟩, _⟩ <;> simp at h
        rcases h with h | h
        · exact .inl h
        · exact .inr h
      have hcal : ∀ w, ¬ Calling (exec P ops).nc w s := by
        rcases hw.now with ⟨_, _, h, _⟩ | ⟨⟨⟨_, h⟩, _⟩ | ⟨h, _⟩, _⟩ | ⟨⟨_, _, h⟩, _⟩ | ⟨⟨_, h⟩ | ⟨_, h⟩, _⟩
        · exact h
        all_goals simp at h
      obtain ⟨y, hy⟩ := where_step P hI hfr hu0 o hu hI' hw
      cases step_loc P hI hu0 o hu hw.lt with
      | same k q =>
        left
        have hc := hy.code
        rw [k.code, hw.code] at hc
        simp only [Option.some.injEq, Code.user.injEq] at hc
        rcases relay_points h1 h2 h3 hy.plays with rfl | ⟨now, rfl⟩ | ⟨r, _, hl⟩
        · exact hy
        · exact absurd hc.symm hne
        · exfalso
          have hd : ((step P s o).coro (exec P ops).nc).status = .done := by
            rcases hl with ⟨v, _, hl⟩ | ⟨e, _, hl⟩ <;>
            rcases hy.now with ⟨_, h, _⟩ | ⟨⟨⟨_, h⟩, _⟩ | ⟨h, _⟩, _⟩ | ⟨⟨_, _, h⟩, _⟩ | ⟨_, h, _⟩
            all_goals first
              | exact h
              | (rw [hl] at h; simp [Fits] at h)
          rcases k.status with h | ⟨_, h, _⟩
          · rw [hd] at h
            rcases hst with h' | h' <;> rw [h'] at h <;> simp at h
          · rw [hd] at h; simp at h
      | woken d r st => rcases hst with h | h <;> rw [st] at h <;> simp at h
      | ext r st => rcases hst with h | h <;> rw [st] at h <;> simp at h
      | ret r us st code owned kind hi inp w cl al => exact absurd ⟨al, cl⟩ (hcal w)
      | act st code hs hc hf hop he =>
        right
        rw [hw.code] at hc
        simp only [Option.some.injEq] at hc
        obtain ⟨now, hn⟩ := h1 (s.coro (exec P ops).nc).inp
        rw [he, ← hc]
        have : (codeNext P (s.coro (exec P ops).nc).owned (.user f) (s.coro (exec P ops).nc).inp).2 = .u (.awaitExt now) := by simp [codeNext, hn]
        rw [this]
        exact log_awaitExt _ _ _ _
    · right
      obtain ⟨n, hn⟩ := step_log P (exec P ((ops ++ [op]) ++ l)) o
      rw [hn]; exact List.mem_append.2 (.inl hx)

/-- When it has finished with `r`, its `co_await` ended with `r`: the history of its only `co_await`. -/
theorem relay_result {P : Prog σ V E} {ops op ops' who k f v args} (hp : Performs P (exec P ops) op who (.call k f v args)) (hr : Relay P f)
    (hu : (exec P (ops ++ op :: ops')).ub = none) {r : Res V E} (hf : .finished (exec P ops).nc r ∈ (exec P (ops ++ op :: ops')).log) :
    .extSusp (exec P ops).nc ∈ (exec P (ops ++ op :: ops')).log ∧ ∀ r', .extRes (exec P ops).nc r' ∈ (exec P (ops ++ op :: ops')).log → r' = r := by
  have hL := exec_linv P (ops ++ op :: ops')
  have hd := life_done_of_fin P hL.ok hf
  rw [hL.life] at hd
  have hs : .extSusp (exec P ops).nc ∈ (exec P (ops ++ op :: ops')).log := by
    rcases relay_susp hp hr hu with hw | h
    · rcases hw.now with ⟨h | ⟨h, _⟩, _⟩ | ⟨⟨⟨_, h⟩, _⟩ | ⟨h, _⟩, _⟩ | ⟨⟨_, _, h⟩, _⟩ | ⟨⟨_, h⟩ | ⟨_, h⟩, _⟩
      · rw [hd] at h; simp at h
      · rw [hd] at h; simp at h
      all_goals simp at h
    · exact h
  obtain ⟨f1, hne, h1, h2, h3⟩ := hr
  obtain ⟨x, hx⟩ := where_exec hp hu
  have htalk : talk (exec P ops).nc (fun w => ((exec P (ops ++ op :: ops')).wctx w).caller) (exec P (ops ++ op :: ops')).log = x.seen := by
    rcases hx.now with ⟨h | ⟨h, _⟩, _⟩ | ⟨⟨⟨_, _⟩, h | ⟨_, h⟩⟩ | ⟨_, h⟩, _⟩ | ⟨_, h, _⟩ | ⟨_, _, _, h⟩
    · rw [hd] at h; simp at h
    · rw [hd] at h; simp at h
    · rw [hd] at h; simp at h
    · rw [hd] at h; simp at h
    · rw [hd] at h; simp at h
    · rw [hd] at h; simp at h
    · exact h
  have hmem : ∀ e t, e ∈ (exec P (ops ++ op :: ops')).log → tev (exec P ops).nc (fun w => ((exec P (ops ++ op :: ops')).wctx w).caller) e = some t → t ∈ x.seen := by
    intro e t he ht
    rw [← htalk]
    exact List.mem_filterMap.2 ⟨e, he, ht⟩
  have hend := hmem _ (.ended r) hf (by simp [tev])
  refine ⟨hs, fun r' hr' => ?_⟩
  have hh := hmem _ (.heard r') hr' (by simp [tev])
  rcases relay_points h1 h2 h3 hx.plays with rfl | ⟨now, rfl⟩ | ⟨r0, hs0, _⟩
  · simp at hend
  · simp at hend
  · rw [hs0] at hend hh
    simp at hend hh
    rw [hh, hend]

end QCoro.Task

namespace QCoro.World
open QCoro
variable {σ V E α : Type} [DecidableEq V] [DecidableEq E]

/-- C87. The coroutine that `qCoro()` is: when it has finished, it has done one `co_await`, whose outcome is its own.  So (`C87_value`) if that was a `co_await` of a signal, it finishes with the
arguments of the first emission since, or with nothing if the object did not exist or the timeout elapsed. -/
theorem C87_qCoro (P : Task.Prog σ V E) (dec : Option α → V) (ops : List (Op σ V E α)) {t1 op t2 who k f v args}
    (ht : (exec P dec ops).T = Task.exec P (t1 ++ op :: t2)) (hp : Task.Performs P (Task.exec P t1) op who (.call k f v args)) (hr : Task.Relay P f)
    (hu : (exec P dec ops).T.ub = none) (c : Nat) (hc : c = (Task.exec P t1).nc) (r : Task.Res V E) (hf : .task (.finished c r) ∈ (exec P dec ops).hist) :
    ∃ pre mid post, (exec P dec ops).hist = pre ++ .task (.extSusp c) :: (mid ++ .task (.extRes c r) :: post) ∧ (∀ e ∈ mid, extOf c e = false) ∧
      ∀ j w kd t m0, mid = .sig j (.awaited w 0 kd t) :: m0 → ∃ m x, ∃ now : Nat, m0 = m ++ [.sig j (.resumed w 0 x now false)] ∧ r = .val (dec x) ∧
        (∀ a, x = some a → .sig j .destroyed ∉ pre ∧ (emitted j m).head? = some a) ∧
        (x = none → .sig j .destroyed ∈ pre ∨ (.sig j .destroyed ∉ pre ++ m ∧ 0 ≤ kd.ms ∧ (t : Int) + kd.ms ≤ now)) := by
  subst hc
  have hw := winv_exec P dec ops
  have hmem : ∀ e, .task e ∈ (exec P dec ops).hist ↔ e ∈ (exec P dec ops).T.log := by
    intro e
    rw [← hw.j.pt, List.mem_filterMap]
    constructor
    · intro h; exact ⟨_, h, rfl⟩
    · rintro ⟨x, hx, he⟩
      cases x <;> simp [tk] at he
      rwa [he] at hx
  rw [hmem, ht] at hf
  rw [ht] at hu
  obtain ⟨h1, h2⟩ := Task.relay_result hp hr hu hf
  rw [← ht, ← hmem] at h1
  -- the last time it suspended
  have hex : ∀ r', .task (.extRes (Task.exec P t1).nc r') ∈ (exec P dec ops).hist → r' = r := fun r' h => h2 r' (by rw [← ht, ← hmem]; exact h)
  obtain ⟨pre, l, hl⟩ := List.append_of_mem h1
  have hin : ∃ r', .task (.extRes (Task.exec P t1).nc r') ∈ l := by
    apply Classical.byContradiction
    intro hn
    have := (pending hw hl (fun r' h => hn ⟨r', h⟩)).1
    rw [ht] at this
    rw [Task.life_done_of_fin P (Task.exec_linv P _).ok hf] at this
    simp at this
  obtain ⟨r', hr'⟩ := hin
  have hfirst : ∃ mid post, l = mid ++ .task (.extRes (Task.exec P t1).nc r) :: post ∧ ∀ r, .task (.extRes (Task.exec P t1).nc r) ∉ mid := by
    have : ∀ (q : JEv V E α → Bool) (l : List (JEv V E α)), (∃ e ∈ l, q e = true) → ∃ mid e post, l = mid ++ e :: post ∧ q e = true ∧ ∀ x ∈ mid, q x = false := by
      intro q l
      induction l with
      | nil => rintro ⟨_, h, _⟩; simp at h
      | cons y l ih =>
        intro h
        by_cases hy : q y = true
        · exact ⟨[], y, l, rfl, hy, by simp⟩
        · obtain ⟨e, he, hq⟩ := h
          have : e ∈ l := by
            rcases List.mem_cons.1 he with rfl | h
            · exact absurd hq hy
            · exact h
          obtain ⟨mid, e, post, rfl, a, b⟩ := ih ⟨e, this, hq⟩
          exact ⟨y :: mid, e, post, rfl, a, by simpa [hy] using b⟩
    obtain ⟨mid, e, post, rfl, a, b⟩ := this (fun | .task (.extRes c _) => c == (Task.exec P t1).nc | _ => false) l ⟨_, hr', by simp⟩
    have he : ∃ r0, e = .task (.extRes (Task.exec P t1).nc r0) := by
      split at a
      · rename_i c r0
        simp at a; subst a; exact ⟨_, rfl⟩
      · simp at a
    obtain ⟨r0, rfl⟩ := he
    have : r0 = r := hex r0 (by rw [hl]; simp)
    subst this
    refine ⟨mid, post, rfl, fun r1 h => ?_⟩
    have := b _ h
    simp at this
  obtain ⟨mid, post, rfl, hmid⟩ := hfirst
  have hno : ∀ e ∈ mid, extOf (Task.exec P t1).nc e = false := by
    intro e he
    cases e with
    | sig => rfl
    | task e =>
      cases e with
      | extRes c' r1 =>
        simp only [extOf, beq_eq_false_iff_ne]
        rintro rfl
        exact hmid _ he
      | extSusp c' =>
        simp only [extOf, beq_eq_false_iff_ne]
        rintro rfl
        obtain ⟨m1, m2, rfl⟩ := List.append_of_mem he
        have hok := (Task.exec_linv P (t1 ++ op :: t2)).ok
        rw [← ht, ← hw.j.pt, hl] at hok
        have e2 : (pre ++ .task (.extSusp (Task.exec P t1).nc) :: ((m1 ++ .task (.extSusp (Task.exec P t1).nc) :: m2) ++ .task (.extRes (Task.exec P t1).nc r) :: post)).filterMap tk =
            ((pre.filterMap tk ++ [.extSusp (Task.exec P t1).nc]) ++ m1.filterMap tk) ++ .extSusp (Task.exec P t1).nc :: ((m2 ++ JEv.task (α := α) (.extRes (Task.exec P t1).nc r) :: post).filterMap tk) := by
          simp [tk, List.filterMap_cons]
        rw [e2] at hok
        have h4 : Task.life (Task.exec P t1).nc _ = .running := hok _ _ _ rfl
        have h5 := Task.life_keep hok.prefix (c := (Task.exec P t1).nc) (fun e he r1 hr => by
          rw [List.mem_filterMap] at he
          obtain ⟨x, hx, he⟩ := he
          cases x <;> simp [tk] at he
          subst he hr
          exact hmid r1 (List.mem_append.2 (.inl hx))) (by simp [Task.lifeStep])
        rw [h5] at h4; simp at h4
      | _ => rfl
  refine ⟨pre, mid, post, hl, hno, ?_⟩
  rintro j w kd t m0 rfl
  exact C87_value P dec ops pre m0 post _ j w kd t r (by rw [hl]; simp) (fun e he => hno e (by simp [he]))

/-- C87. And the first `co_await` of the Task it returns has that outcome. -/
theorem C87_first_await (P : Task.Prog σ V E) (dec : Option α → V) (ops : List (Op σ V E α)) (l1 l2 : List (JEv V E α)) (a c : Nat) (r : Task.Res V E) (e : Task.Ev V E)
    (h : (exec P dec ops).hist = l1 ++ .task e :: l2) (he : e = .gotReady a c r ∨ e = .gotWoken a c r) (h1 : ∀ a' r', .task (.gotReady a' c r') ∉ l1 ∧ .task (.gotWoken a' c r') ∉ l1) :
    .task (.finished c r) ∈ l1 := by
  have hw := winv_exec P dec ops
  obtain ⟨tops, ht⟩ := hw.t
  have hok := (Task.exec_linv P tops).ok
  rw [← ht, ← hw.j.pt, h] at hok
  have hl := hok (l1.filterMap tk) e (l2.filterMap tk) (by simp [tk, List.filterMap_cons])
  have hg : Task.gots c (l1.filterMap tk) = [] := by
    apply List.eq_nil_iff_forall_not_mem.2
    intro r' hr'
    obtain ⟨e, he, hq⟩ := List.mem_filterMap.1 hr'
    obtain ⟨x, hx, he⟩ := List.mem_filterMap.1 he
    cases x <;> simp [tk] at he
    subst he
    rename_i e
    cases e <;> simp at hq
    · rename_i a' d' _
      obtain ⟨rfl, rfl⟩ := hq
      exact (h1 _ _).1 hx
    · rename_i a' d' _
      obtain ⟨rfl, rfl⟩ := hq
      exact (h1 _ _).2 hx
  have : ∃ r0, Task.fins c (l1.filterMap tk) = [r0] ∧ r = Task.readN P (Task.gots c (l1.filterMap tk)).length r0 := by
    rcases he with rfl | rfl
    · exact hl.2.2.2
    · exact hl.2.2.2.2
  obtain ⟨r0, hf, hr⟩ := this
  rw [hg] at hr
  simp only [List.length_nil, Task.readN] at hr
  subst hr
  have : r ∈ Task.fins c (l1.filterMap tk) := by rw [hf]; simp
  obtain ⟨e, he, hq⟩ := List.mem_filterMap.1 this
  obtain ⟨x, hx, he⟩ := List.mem_filterMap.1 he
  cases x <;> simp [tk] at he
  subst he
  rename_i e
  cases e <;> simp at hq
  obtain ⟨rfl, rfl⟩ := hq
  exact hx

end QCoro.World
