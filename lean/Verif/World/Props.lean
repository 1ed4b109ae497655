import Verif.World.Inv
import Verif.Task.ProgressDemo
/-! # C87: coroutines that await signals, end to end -/
set_option linter.unusedSimpArgs false
namespace QCoro.World
open QCoro
variable {σ V E α : Type}

/-- The emissions of object `j` in a piece of history. Specification vocabulary, no counterpart in /repo. -/
def emitted (j : Nat) (l : List (JEv V E α)) : List α := l.filterMap fun | .sig i (.emitted _ a) => if i = j then some a else none | _ => none

theorem emitted_eq (j : Nat) (l : List (JEv V E α)) : Sig.emissions (l.filterMap (sg j)) = emitted j l := by
  simp only [Sig.emissions, emitted, List.filterMap_filterMap]
  congr 1
  funext e
  cases e with
  | task => rfl
  | sig i e =>
    by_cases h : i = j
    · subst h; cases e <;> simp [sg]
    · cases e <;> simp [sg, h]

theorem mem_sg {j : Nat} {l : List (JEv V E α)} {e : Sig.Ev α} : e ∈ l.filterMap (sg j) ↔ .sig j e ∈ l := by
  rw [List.mem_filterMap]
  constructor
  · rintro ⟨x, hx, he⟩
    cases x with
    | task => simp [sg] at he
    | sig i x =>
      by_cases h : i = j
      · subst h; simp [sg] at he; rwa [he] at hx
      · simp [sg, h] at he
  · intro h; exact ⟨_, h, by simp [sg]⟩

theorem alive_after (l : List (Sig.Ev α)) : (Sig.Spec.after l).alive = true ↔ Sig.Ev.destroyed ∉ l := by
  induction l using snocInd with
  | nil => simp [Sig.Spec.after]
  | snoc l e ih =>
    rw [Sig.Spec.after_snoc]
    cases e <;> simp [Sig.Spec.next, ih]

variable [DecidableEq V] [DecidableEq E]

/-- C87. The world is made of the two models: its coroutines are a run of the Task layer, each object is a run of the signal layer, and the common history is a merge of theirs.
So every theorem about the two layers holds in it. -/
theorem C87_layers (P : Task.Prog σ V E) (dec : Option α → V) (ops : List (Op σ V E α)) :
    (∃ tops, (exec P dec ops).T = Task.exec P tops ∧ (exec P dec ops).hist.filterMap tk = (Task.exec P tops).log) ∧
    ∀ j, ∃ sops, (exec P dec ops).S j = Sig.exec sops ∧ (exec P dec ops).hist.filterMap (sg j) = (Sig.exec sops).log := by
  have h := winv_exec P dec ops
  obtain ⟨tops, ht⟩ := h.t
  refine ⟨⟨tops, ht, by rw [h.j.pt, ht]⟩, fun j => ?_⟩
  obtain ⟨sops, hs⟩ := h.so j
  exact ⟨sops, hs, by rw [h.j.ps, hs]⟩

/-- C87. Whoever awaits a signal is continued because its wait ended, and with the outcome of that wait: the arguments of the first emission after the `co_await` began, or nothing, and then the
object did not exist when it began, or it still exists and the timeout has elapsed. -/
theorem C87_value (P : Task.Prog σ V E) (dec : Option α → V) (ops : List (Op σ V E α)) (pre mid post : List (JEv V E α)) (c j w : Nat) (k : Sig.Kind) (t : Nat) (r : Task.Res V E)
    (h : (exec P dec ops).hist = pre ++ .task (.extSusp c) :: .sig j (.awaited w 0 k t) :: (mid ++ .task (.extRes c r) :: post)) (hm : ∀ e ∈ mid, extOf c e = false) :
    ∃ m x, ∃ now : Nat, mid = m ++ [.sig j (.resumed w 0 x now false)] ∧ r = .val (dec x) ∧
      (∀ a, x = some a → .sig j .destroyed ∉ pre ∧ (emitted j m).head? = some a) ∧
      (x = none → .sig j .destroyed ∈ pre ∨ (.sig j .destroyed ∉ pre ++ m ∧ 0 ≤ k.ms ∧ (t : Int) + k.ms ≤ now)) := by
  have hw := winv_exec P dec ops
  have hg := hw.j.g (pre ++ .task (.extSusp c) :: .sig j (.awaited w 0 k t) :: mid) (.task (.extRes c r)) post (by rw [h]; simp)
  have ho : Open c (pre ++ .task (.extSusp c) :: .sig j (.awaited w 0 k t) :: mid) (.sig j (.awaited w 0 k t) :: mid) := ⟨⟨pre, rfl⟩, by simpa [extOf] using hm⟩
  rcases hg with ⟨j', w', k', t', m, x, now, ho', hr⟩ | ⟨mid', ho', hh⟩
  · have := ho.unique ho'
    simp only [List.cons.injEq, JEv.sig.injEq, Sig.Ev.awaited.injEq] at this
    obtain ⟨⟨rfl, rfl, _, rfl, rfl⟩, rfl⟩ := this
    obtain ⟨sops, hs⟩ := hw.so j
    have hp := hw.j.ps j
    rw [hs, h] at hp
    have hl : (Sig.exec sops).log = pre.filterMap (sg j) ++ .awaited w 0 k t :: (m.filterMap (sg j) ++ .resumed w 0 x now false :: post.filterMap (sg j)) := by
      rw [← hp]; simp [sg, List.filterMap_cons]
    obtain ⟨_, _, _, _, hx⟩ := Sig.ended sops _ _ _ _ _ _ _ _ _ _ _ hl
    refine ⟨m, x, now, rfl, hr, ?_, ?_⟩
    · rintro a rfl
      obtain ⟨h1, h2⟩ := hx
      rw [alive_after, mem_sg] at h1
      rw [emitted_eq] at h2
      exact ⟨h1, h2⟩
    · rintro rfl
      rcases hx with h1 | ⟨h1, h2⟩
      · left
        apply Classical.byContradiction
        intro hn
        rw [← mem_sg, ← alive_after, h1] at hn
        simp at hn
      · refine .inr ⟨?_, h2⟩
        rw [alive_after] at h1
        intro hn
        rcases List.mem_append.1 hn with hn | hn
        · exact h1 (List.mem_append.2 (.inl (mem_sg.2 hn)))
        · exact h1 (List.mem_append.2 (.inr (List.mem_cons_of_mem _ (mem_sg.2 hn))))
  · have := ho.unique ho'
    rw [← this] at hh
    simp [isAw] at hh

/-- C87. A wait for a signal begins as part of a `co_await` of the thread that runs the coroutines, and only so. -/
theorem C87_begins (P : Task.Prog σ V E) (dec : Option α → V) (ops : List (Op σ V E α)) (pre post : List (JEv V E α)) (j w th : Nat) (k : Sig.Kind) (t : Nat)
    (h : (exec P dec ops).hist = pre ++ .sig j (.awaited w th k t) :: post) : th = 0 ∧ ∃ p c, pre = p ++ [.task (.extSusp c)] :=
  (winv_exec P dec ops).j.g pre _ post h

omit [DecidableEq V] [DecidableEq E] in
/-- Coroutine `c` waits, now, for the signal of object `j`: the history since it began. Proof vocabulary, no counterpart in /repo. -/
theorem waiting_for {P : Task.Prog σ V E} {dec : Option α → V} {s : State σ V E α} (hw : WInv P dec s) {pre m : List (JEv V E α)} {c j w : Nat} {k : Sig.Kind} {t : Nat}
    (h : s.hist = pre ++ .task (.extSusp c) :: .sig j (.awaited w 0 k t) :: m) (hm : ∀ e ∈ m, extOf c e = false) (hl : Task.life c s.T.log = .waitExt) (hp : (s.S j).posted 0 = []) :
    emitted j m = [] ∧ .sig j .destroyed ∉ pre ∧ (.sig j .destroyed ∉ m → 0 ≤ k.ms → ((s.S j).ws w).timer = some (t + k.ms.toNat)) := by
  obtain ⟨mid, ho, hb⟩ := hw.j.b c hl
  have ho' : Open c s.hist (.sig j (.awaited w 0 k t) :: m) := ⟨⟨pre, h⟩, by simpa [extOf] using hm⟩
  have := ho.unique ho'
  subst this
  obtain ⟨o, hat⟩ : ∃ o, s.at_ c = o := ⟨_, rfl⟩
  rw [hat] at hb
  cases o with
  | none => simp [Bx, isAw] at hb
  | some p =>
    obtain ⟨j', w'⟩ := p
    obtain ⟨_, ⟨th, k', t', ems, d, hph⟩, k2, t2, he⟩ := hb
    simp only [List.head?_cons, Option.some.injEq, JEv.sig.injEq, Sig.Ev.awaited.injEq] at he
    obtain ⟨rfl, rfl, _, rfl, rfl⟩ := he
    obtain ⟨sops, hs⟩ := hw.so j
    have hps := hw.j.ps j
    dsimp only at hps hph
    have hI := Sig.inv_exec sops
    rw [← hs] at hI
    have hll : (s.S j).log = pre.filterMap (sg j) ++ .awaited w 0 k t :: m.filterMap (sg j) := by
      rw [← hps, h]; simp [sg, List.filterMap_cons]
    have htr := Sig.track w 0 k t (pre.filterMap (sg j)) (m.filterMap (sg j)) (by rw [← hll]; exact hI.legal)
    rw [← hll, hph] at htr
    rcases htr with ⟨_, _, h1⟩ | ⟨_, h1⟩
    · obtain ⟨rfl, rfl, rfl, rfl, rfl⟩ := Sig.Ph.waiting.inj h1
      have hrel := hI.rel w
      rw [hph] at hrel
      obtain ⟨r1, r2, r3, r4, r5, r6, r7, r8, r9, r10, r11⟩ := hrel
      rw [hp] at r7
      have hal : (Sig.Spec.after (pre.filterMap (sg j))).alive = true := by simpa using r1
      rw [alive_after, mem_sg] at hal
      refine ⟨?_, hal, fun hd hk => r11 ?_ ?_⟩
      · rw [← emitted_eq, ← r7]; rfl
      · rw [← hI.alive, alive_after, hll]
        intro hx
        rcases List.mem_append.1 hx with hx | hx
        · exact hal (mem_sg.1 hx)
        · rcases List.mem_cons.1 hx with hx | hx
          · simp at hx
          · exact hd (mem_sg.1 hx)
      · rw [r6]; simp; omega
    · simp at h1

omit [DecidableEq V] [DecidableEq E] in
theorem pending {P : Task.Prog σ V E} {dec : Option α → V} {s : State σ V E α} (hw : WInv P dec s) {pre mid : List (JEv V E α)} {c : Nat}
    (h : s.hist = pre ++ .task (.extSusp c) :: mid) (hn : ∀ r, .task (.extRes c r) ∉ mid) : Task.life c s.T.log = .waitExt ∧ ∀ e ∈ mid, extOf c e = false := by
  obtain ⟨tops, ht⟩ := hw.t
  have hok := (Task.exec_linv P tops).ok
  rw [← ht, ← hw.j.pt, h] at hok
  rw [← hw.j.pt, h]
  have e1 : ∀ m : List (JEv V E α), (pre ++ .task (.extSusp c) :: m).filterMap tk = (pre.filterMap tk ++ [.extSusp c]) ++ m.filterMap tk := by
    intro m; simp [tk, List.filterMap_cons]
  have hmem : ∀ (m : List (JEv V E α)) e, e ∈ m.filterMap tk ↔ .task e ∈ m := by
    intro m e
    rw [List.mem_filterMap]
    constructor
    · rintro ⟨x, hx, he⟩
      cases x <;> simp [tk] at he
      rwa [he] at hx
    · intro h; exact ⟨_, h, rfl⟩
  have key : ∀ m : List (JEv V E α), Task.Chk (Task.legal P) ((pre ++ .task (.extSusp c) :: m).filterMap tk) → (∀ r, .task (.extRes c r) ∉ m) →
      Task.life c ((pre ++ .task (.extSusp c) :: m).filterMap tk) = .waitExt := by
    intro m hc hm
    rw [e1] at hc ⊢
    refine Task.life_keep hc (fun e he r hr => ?_) (by simp [Task.lifeStep])
    rw [hmem, hr] at he
    exact hm r he
  refine ⟨key mid hok hn, fun e he => ?_⟩
  obtain ⟨m1, m2, rfl⟩ := List.append_of_mem he
  cases e with
  | sig => rfl
  | task e =>
    cases e with
    | extRes c' r =>
      simp only [extOf, beq_eq_false_iff_ne]
      rintro rfl
      exact hn r he
    | extSusp c' =>
      simp only [extOf, beq_eq_false_iff_ne]
      rintro rfl
      have e2 : (pre ++ .task (.extSusp c') :: (m1 ++ .task (.extSusp c') :: m2)).filterMap tk =
          (pre ++ .task (.extSusp c') :: m1).filterMap tk ++ .extSusp c' :: m2.filterMap tk := by simp [tk, List.filterMap_cons]
      rw [e2] at hok
      have h1 := key m1 hok.prefix (fun r hr => hn r (by simp [hr]))
      have h2 : Task.life c' _ = .running := hok _ _ _ rfl
      rw [h1] at h2; simp at h2
    | _ => rfl

/-- C87. No emission is lost: once the event loop has nothing more to deliver from the object, every coroutine that awaited the signal before an emission has been continued. -/
theorem C87_delivered (P : Task.Prog σ V E) (dec : Option α → V) (ops : List (Op σ V E α)) (pre mid : List (JEv V E α)) (c j w : Nat) (k : Sig.Kind) (t : Nat) (th : Nat) (a : α)
    (h : (exec P dec ops).hist = pre ++ .task (.extSusp c) :: .sig j (.awaited w 0 k t) :: mid) (he : .sig j (.emitted th a) ∈ mid) (hp : ((exec P dec ops).S j).posted 0 = []) :
    ∃ r, .task (.extRes c r) ∈ mid := by
  have hw := winv_exec P dec ops
  apply Classical.byContradiction
  intro hn
  obtain ⟨hl, hx⟩ := pending hw h (fun r hr => by
    rcases List.mem_cons.1 hr with hr | hr
    · simp at hr
    · exact hn ⟨r, hr⟩)
  have := (waiting_for hw h (fun e he => hx e (by simp [he])) hl hp).1
  rw [← emitted_eq] at this
  have hm : a ∈ Sig.emissions (mid.filterMap (sg j)) := List.mem_filterMap.2 ⟨.emitted th a, mem_sg.2 he, rfl⟩
  rw [this] at hm
  simp at hm

/-- The event loop of the thread has nothing to do: control is in it, no posted event, no timer due. Specification vocabulary, no counterpart in /repo. -/
def Idle (s : State σ V E α) : Prop := s.T.stack = [] ∧ ∀ j, (s.S j).posted 0 = [] ∧ ∀ w d, ((s.S j).ws w).timer = some d → (s.S j).now < d

/-- Coroutine `c` waits for something that the world has not done: something that is not a signal, or the signal of an object that existed when the wait began, that has not been
emitted since, and the timeout is negative or has not elapsed, or the object was destroyed. Specification vocabulary, no counterpart in /repo. -/
def Lacks (s : State σ V E α) (c : Nat) : Prop :=
  ∃ pre mid, s.hist = pre ++ .task (.extSusp c) :: mid ∧ (∀ e ∈ mid, extOf c e = false) ∧
    (mid.head?.any isAw = false ∨
     ∃ j w k t m, mid = .sig j (.awaited w 0 k t) :: m ∧ emitted j m = [] ∧ .sig j .destroyed ∉ pre ∧ (.sig j .destroyed ∈ m ∨ k.ms < 0 ∨ ((s.S j).now : Int) < t + k.ms))

/-- C87. The library loses no wake-up, end to end: when the event loop has nothing to do, a coroutine that has begun has finished, or following who awaits whom one comes to a coroutine
that awaits something the world has not done, or an empty Task, or into a circle. -/
theorem C87_idle (P : Task.Prog σ V E) (dec : Option α → V) (ops : List (Op σ V E α)) (hu : (exec P dec ops).T.ub = none) (hi : Idle (exec P dec ops)) (c : Nat)
    (hc : Task.Started c (exec P dec ops).T.log) (hn : Task.life c (exec P dec ops).T.log ≠ .done) :
    ∃ e, (e = c ∨ Task.Awaits (exec P dec ops).T.log c e) ∧
      (Lacks (exec P dec ops) e ∨ Task.life e (exec P dec ops).T.log = .waitNull ∨ Task.Awaits (exec P dec ops).T.log e e) := by
  have hw := winv_exec P dec ops
  generalize exec P dec ops = s at *
  obtain ⟨tops, ht⟩ := hw.t
  obtain ⟨e, h1, h2⟩ := Task.C61_blocked_from_outside P tops (by rw [← ht]; exact hu) (by rw [← ht]; exact hi.1) c (by rw [← ht]; exact hc) (by rw [← ht]; exact hn)
  rw [← ht] at h1 h2
  refine ⟨e, h1, ?_⟩
  rcases h2 with h2 | h2 | h2
  · left
    obtain ⟨mid, ⟨⟨pre, ho⟩, hm⟩, hb⟩ := hw.j.b e h2
    refine ⟨pre, mid, ho, hm, ?_⟩
    obtain ⟨o, hat⟩ : ∃ o, s.at_ e = o := ⟨_, rfl⟩
    rw [hat] at hb
    cases o with
    | none => exact .inl hb
    | some p =>
      obtain ⟨j, w⟩ := p
      obtain ⟨_, _, k, t, hh⟩ := hb
      cases mid with
      | nil => simp at hh
      | cons x m =>
        simp only [List.head?_cons, Option.some.injEq] at hh
        subst hh
        obtain ⟨q1, q2, q3⟩ := waiting_for hw ho (fun e he => hm e (by simp [he])) h2 (hi.2 j).1
        refine .inr ⟨j, w, k, t, m, rfl, q1, q2, ?_⟩
        by_cases hd : .sig j .destroyed ∈ m
        · exact .inl hd
        · by_cases hk : k.ms < 0
          · exact .inr (.inl hk)
          · have := (hi.2 j).2 w _ (q3 hd (by omega))
            right; right; omega
  · exact .inr (.inl h2)
  · exact .inr (.inr h2)

/-- C87. One clock. -/
theorem C87_clock (P : Task.Prog σ V E) (dec : Option α → V) (ops : List (Op σ V E α)) (hu : (exec P dec ops).stop = false) (i j : Nat) :
    ((exec P dec ops).S i).now = ((exec P dec ops).S j).now := (winv_exec P dec ops).n hu i j

end QCoro.World
