import Verif.World.Model
/-! # The common history of coroutines and signals: what holds of it, event by event -/
set_option linter.unusedSimpArgs false
namespace QCoro.World
open QCoro
variable {σ V E α : Type}

/-- What the Task layer sees of the history. Specification vocabulary, no counterpart in /repo. -/
def tk : JEv V E α → Option (Task.Ev V E)
  | .task e => some e
  | _ => none

/-- What object `j` sees of the history. Specification vocabulary, no counterpart in /repo. -/
def sg (j : Nat) : JEv V E α → Option (Sig.Ev α)
  | .sig i e => if i = j then some e else none
  | _ => none

/-- The event begins or ends a `co_await`, by `c`, of something that is not a Task. Specification vocabulary, no counterpart in /repo. -/
def extOf (c : Nat) : JEv V E α → Bool
  | .task (.extSusp c') => c' == c
  | .task (.extRes c' _) => c' == c
  | _ => false

/-- The event is the beginning of a wait for a signal. Specification vocabulary, no counterpart in /repo. -/
def isAw : JEv V E α → Bool
  | .sig _ (.awaited _ _ _ _) => true
  | _ => false

/-- Every element is admissible after what precedes it. Proof vocabulary, no counterpart in /repo. -/
def Ck {β : Type} (ok : List β → β → Prop) (l : List β) : Prop := ∀ pre e post, l = pre ++ e :: post → ok pre e

theorem Ck.nil {β : Type} {ok : List β → β → Prop} : Ck ok [] := by intro pre e post h; simp at h
theorem Ck.snoc {β : Type} {ok : List β → β → Prop} {l : List β} {e : β} (h : Ck ok l) (he : ok l e) : Ck ok (l ++ [e]) := by
  intro pre e' post hp
  rcases List.append_eq_append_iff.mp hp with ⟨as, h1, h2⟩ | ⟨bs, h1, h2⟩
  · cases as with
    | nil => simp at h2 h1; obtain ⟨rfl, _⟩ := h2; subst h1; exact he
    | cons a as => simp at h2
  · cases bs with
    | nil => simp at h2 h1; obtain ⟨rfl, _⟩ := h2; subst h1; exact he
    | cons a bs => simp at h2; obtain ⟨rfl, _⟩ := h2; exact h pre _ _ h1

/-- The history up to now ends with a `co_await` of `c`, pending, that began with `mid.head?`. Proof vocabulary, no counterpart in /repo. -/
def Open (c : Nat) (hist : List (JEv V E α)) (mid : List (JEv V E α)) : Prop :=
  (∃ pre, hist = pre ++ .task (.extSusp c) :: mid) ∧ ∀ e ∈ mid, extOf c e = false

/-- When an event may happen: a wait for a signal begins as part of a `co_await`; a `co_await` of a signal ends directly after, and as, its wait ended, with the same outcome.
Specification vocabulary, no counterpart in /repo. -/
def okJ (dec : Option α → V) (pre : List (JEv V E α)) : JEv V E α → Prop
  | .sig _ (.awaited _ th _ _) => th = 0 ∧ ∃ p c, pre = p ++ [.task (.extSusp c)]
  | .task (.extRes c r) =>
    (∃ j w k t m x now, Open c pre (.sig j (.awaited w 0 k t) :: (m ++ [.sig j (.resumed w 0 x now false)])) ∧ r = .val (dec x)) ∨
    ∃ mid, Open c pre mid ∧ mid.head?.any isAw = false
  | _ => True

/-- What the wait in which `c` is says. Proof vocabulary, no counterpart in /repo. -/
def Bx (own : Nat → Nat → Nat) (sl : Nat → List (Sig.Ev α)) (c : Nat) (mid : List (JEv V E α)) : Option (Nat × Nat) → Prop
  | none => mid.head?.any isAw = false
  | some (j, w) => own j w = c ∧ (∃ th k t ems d, (Sig.Spec.after (sl j)).ph w = .waiting th k t ems d) ∧ ∃ k t, mid.head? = some (.sig j (.awaited w 0 k t))

/-- The invariant, in terms of histories. Proof vocabulary, no counterpart in /repo. -/
structure J (dec : Option α → V) (tl : List (Task.Ev V E)) (sl : Nat → List (Sig.Ev α)) (own : Nat → Nat → Nat) (at_ : Nat → Option (Nat × Nat)) (hist : List (JEv V E α)) : Prop where
  pt : hist.filterMap tk = tl
  ps : ∀ j, hist.filterMap (sg j) = sl j
  a : ∀ j w th k t ems d, (Sig.Spec.after (sl j)).ph w = .waiting th k t ems d → th = 0 ∧ at_ (own j w) = some (j, w) ∧ Task.life (own j w) tl = .waitExt
  b : ∀ c, Task.life c tl = .waitExt → ∃ mid, Open c hist mid ∧ Bx own sl c mid (at_ c)
  g : Ck (okJ dec) hist

theorem Open.app {c : Nat} {hist mid evs : List (JEv V E α)} (h : Open c hist mid) (he : ∀ e ∈ evs, extOf c e = false) : Open c (hist ++ evs) (mid ++ evs) := by
  obtain ⟨⟨p, rfl⟩, h2⟩ := h
  refine ⟨⟨p, by simp⟩, fun e h => ?_⟩
  rcases List.mem_append.1 h with h | h
  · exact h2 e h
  · exact he e h

theorem Open.begin (c : Nat) (hist evs : List (JEv V E α)) (he : ∀ e ∈ evs, extOf c e = false) : Open c (hist ++ .task (.extSusp c) :: evs) evs :=
  ⟨⟨hist, rfl⟩, he⟩

theorem Open.unique {c : Nat} {hist m m' : List (JEv V E α)} (h : Open c hist m) (h' : Open c hist m') : m = m' := by
  obtain ⟨⟨p, hp⟩, h2⟩ := h
  obtain ⟨⟨p', hp'⟩, h2'⟩ := h'
  rw [hp] at hp'
  rcases List.append_eq_append_iff.mp hp' with ⟨as, h3, h4⟩ | ⟨bs, h3, h4⟩
  · cases as with
    | nil => simpa using h4
    | cons a as =>
      simp only [List.cons_append, List.cons.injEq] at h4
      have := h2 (.task (.extSusp c)) (by rw [h4.2]; simp)
      simp [extOf] at this
  · cases bs with
    | nil => simpa using h4.symm
    | cons a as =>
      simp only [List.cons_append, List.cons.injEq] at h4
      have := h2' (.task (.extSusp c)) (by rw [h4.2]; simp)
      simp [extOf] at this

theorem head_app {mid evs : List (JEv V E α)} (h1 : mid.head?.any isAw = false) (h2 : evs.head?.any isAw = false) : (mid ++ evs).head?.any isAw = false := by
  cases mid <;> simp_all

theorem Bx.app {own : Nat → Nat → Nat} {sl sl' : Nat → List (Sig.Ev α)} {c : Nat} {mid evs : List (JEv V E α)} {o : Option (Nat × Nat)} (h : Bx own sl c mid o)
    (h2 : evs.head?.any isAw = false)
    (h3 : ∀ j w, o = some (j, w) → (∃ th k t ems d, (Sig.Spec.after (sl j)).ph w = .waiting th k t ems d) → ∃ th k t ems d, (Sig.Spec.after (sl' j)).ph w = .waiting th k t ems d) :
    Bx own sl' c (mid ++ evs) o := by
  cases o with
  | none => exact head_app h h2
  | some p =>
    obtain ⟨j, w⟩ := p
    obtain ⟨h4, h5, k, t, h6⟩ := h
    refine ⟨h4, h3 j w rfl h5, k, t, ?_⟩
    cases mid <;> simp_all

/-! ### The kinds of steps -/

variable {dec : Option α → V} {tl : List (Task.Ev V E)} {sl sl' : Nat → List (Sig.Ev α)} {own : Nat → Nat → Nat} {at_ : Nat → Option (Nat × Nat)} {hist : List (JEv V E α)} {P : Task.Prog σ V E}

theorem map_tk (n : List (Task.Ev V E)) : (n.map (JEv.task (α := α))).filterMap tk = n := by
  induction n with
  | nil => rfl
  | cons e n ih => simp [tk, ih]
theorem map_sg (j : Nat) (n : List (Task.Ev V E)) : (n.map (JEv.task (α := α))).filterMap (sg j) = [] := by
  induction n with
  | nil => rfl
  | cons e n ih => simp [sg, ih]

theorem head_task (n : List (Task.Ev V E)) : (n.map (JEv.task (α := α))).head?.any isAw = false := by cases n <;> simp [isAw]

theorem Ck.tasks {n : List (Task.Ev V E)} (hg : Ck (okJ dec) hist) (hn : ∀ e ∈ n, Task.isExt e = false) : Ck (okJ dec) (hist ++ n.map .task) := by
  induction n using snocInd with
  | nil => simpa using hg
  | snoc n e ih =>
    rw [List.map_append, ← List.append_assoc]
    refine (ih fun e he => hn e (by simp [he])).snoc ?_
    have := hn e (by simp)
    cases e <;> simp_all [okJ, Task.isExt]

/-- The thread goes on without a `co_await` of something that is not a Task. -/
theorem J.go (h : J dec tl sl own at_ hist) {n : List (Task.Ev V E)} (hc : Task.Chk (Task.legal P) (tl ++ n)) (hn : ∀ e ∈ n, Task.isExt e = false) :
    J dec (tl ++ n) sl own at_ (hist ++ n.map .task) := by
  have hx : ∀ c, ∀ e ∈ n.map (JEv.task (α := α)), extOf c e = false := by
    intro c e he
    obtain ⟨e', he', rfl⟩ := List.mem_map.1 he
    have := hn e' he'
    cases e' <;> simp_all [extOf, Task.isExt]
  refine ⟨by rw [List.filterMap_append, h.pt, map_tk], fun j => by rw [List.filterMap_append, h.ps, map_sg, List.append_nil], fun j w th k t ems d hw => ?_, fun c hl => ?_, h.g.tasks hn⟩
  · obtain ⟨h1, h2, h3⟩ := h.a j w th k t ems d hw
    refine ⟨h1, h2, Task.life_keep hc (fun e he r hr => ?_) h3⟩
    have := hn e he
    rw [hr] at this; simp [Task.isExt] at this
  · have hl := Task.life_back (fun e he hr => ?_) hl
    · obtain ⟨mid, h1, h2⟩ := h.b c hl
      exact ⟨_, h1.app (hx c), h2.app (head_task n) (fun _ _ _ h => h)⟩
    · have := hn e he
      rw [hr] at this; simp [Task.isExt] at this

theorem susp_life {c : Nat} (hc : Task.Chk (Task.legal P) (tl ++ [.extSusp c])) : Task.life c tl = .running := hc tl _ [] rfl

/-- It begins a `co_await` of something that is neither a Task nor a signal. -/
theorem J.other (h : J dec tl sl own at_ hist) {c : Nat} (hc : Task.Chk (Task.legal P) (tl ++ [.extSusp c])) :
    J dec (tl ++ [.extSusp c]) sl own (upd at_ c none) (hist ++ [.task (.extSusp c)]) := by
  have hr := susp_life hc
  refine ⟨by simp [h.pt, tk, List.filterMap_cons], fun j => by simp [h.ps, sg, List.filterMap_cons], fun j w th k t ems d hw => ?_, fun c' hl => ?_, h.g.snoc trivial⟩
  · obtain ⟨h1, h2, h3⟩ := h.a j w th k t ems d hw
    have hne : own j w ≠ c := by rintro hx; rw [hx, hr] at h3; simp at h3
    exact ⟨h1, by rw [upd_other _ _ hne]; exact h2, Task.life_keep hc (by simp) h3⟩
  · by_cases hcc : c' = c
    · subst hcc
      exact ⟨[], Open.begin _ _ [] (by simp), by rw [upd_same]; simp [Bx]⟩
    · have hl := Task.life_back (by simpa using Ne.symm hcc) hl
      obtain ⟨mid, h1, h2⟩ := h.b c' hl
      refine ⟨_, h1.app (evs := [.task (.extSusp c)]) (by simp [extOf, Ne.symm hcc]), ?_⟩
      rw [upd_other _ _ hcc]
      exact h2.app (by simp [isAw]) (fun _ _ _ h => h)

theorem life_two {c : Nat} {r : Task.Res V E} (c' : Nat) (hr : Task.life c tl = .running) :
    Task.life c' (tl ++ [.extSusp c, .extRes c r]) = Task.life c' tl := by
  rw [show tl ++ [Task.Ev.extSusp c, .extRes c r] = (tl ++ [.extSusp c]) ++ [.extRes c r] by simp, Task.life_snoc, Task.life_snoc]
  by_cases h : c' = c
  · subst h; simp [Task.lifeStep, hr]
  · simp [Task.lifeStep, Ne.symm h]

/-- … of one that was ready. -/
theorem J.ready (h : J dec tl sl own at_ hist) {c : Nat} {r : Task.Res V E} (hc : Task.Chk (Task.legal P) (tl ++ [.extSusp c, .extRes c r])) :
    J dec (tl ++ [.extSusp c, .extRes c r]) sl own at_ (hist ++ [.task (.extSusp c), .task (.extRes c r)]) := by
  have hr : Task.life c tl = .running := hc tl _ [.extRes c r] rfl
  refine ⟨by simp [h.pt, tk, List.filterMap_cons], fun j => by simp [h.ps, sg, List.filterMap_cons], fun j w th k t ems d hw => ?_, fun c' hl => ?_, ?_⟩
  · obtain ⟨h1, h2, h3⟩ := h.a j w th k t ems d hw
    exact ⟨h1, h2, by rw [life_two _ hr]; exact h3⟩
  · rw [life_two _ hr] at hl
    have hcc : c' ≠ c := by rintro rfl; rw [hr] at hl; simp at hl
    obtain ⟨mid, h1, h2⟩ := h.b c' hl
    exact ⟨_, h1.app (evs := [.task (.extSusp c), .task (.extRes c r)]) (by simp [extOf, Ne.symm hcc]), h2.app (by simp [isAw]) (fun _ _ _ h => h)⟩
  · rw [show hist ++ [JEv.task (Task.Ev.extSusp c), .task (.extRes c r)] = (hist ++ [.task (.extSusp c)]) ++ [.task (.extRes c r)] by simp]
    have hg : Ck (okJ dec) (hist ++ [.task (.extSusp c)]) := h.g.snoc (by trivial)
    refine hg.snoc ?_
    exact .inr ⟨[], Open.begin _ _ [] (by simp), by simp⟩

theorem ph_awaited {l : List (Sig.Ev α)} {v w th k t} (h : v ≠ w) : (Sig.Spec.after (l ++ [.awaited w th k t])).ph v = (Sig.Spec.after l).ph v := by
  rw [Sig.Spec.after_snoc]; exact upd_other _ _ h
theorem ph_resumed {l : List (Sig.Ev α)} {v w th k t i} (h : v ≠ w) : (Sig.Spec.after (l ++ [.resumed w th k t i])).ph v = (Sig.Spec.after l).ph v := by
  rw [Sig.Spec.after_snoc]; exact upd_other _ _ h

/-- It begins a `co_await` of the signal of an object that exists. -/
theorem J.await (h : J dec tl sl own at_ hist) {c j w t : Nat} {k : Sig.Kind} (hc : Task.Chk (Task.legal P) (tl ++ [.extSusp c])) (hw : (Sig.Spec.after (sl j)).ph w = .unborn) :
    J dec (tl ++ [.extSusp c]) (upd sl j (sl j ++ [.awaited w 0 k t])) (upd own j (upd (own j) w c)) (upd at_ c (some (j, w)))
      (hist ++ [.task (.extSusp c), .sig j (.awaited w 0 k t)]) := by
  have hr := susp_life hc
  have hown : ∀ i v, (i, v) ≠ (j, w) → upd own j (upd (own j) w c) i v = own i v := by
    intro i v hne
    by_cases hi : i = j
    · subst hi; rw [upd_same]; exact upd_other _ _ (by rintro rfl; exact hne rfl)
    · rw [upd_other _ _ hi]
  have hown1 : upd own j (upd (own j) w c) j w = c := by rw [upd_same, upd_same]
  have hph : ∀ i v, (i, v) ≠ (j, w) → (Sig.Spec.after (upd sl j (sl j ++ [.awaited w 0 k t]) i)).ph v = (Sig.Spec.after (sl i)).ph v := by
    intro i v hne
    by_cases hi : i = j
    · subst hi; rw [upd_same]; exact ph_awaited (by rintro rfl; exact hne rfl)
    · rw [upd_other _ _ hi]
  have hph1 : ∃ d, (Sig.Spec.after (upd sl j (sl j ++ [.awaited w 0 k t]) j)).ph w = .waiting 0 k t [] d := by
    rw [upd_same, Sig.Spec.after_snoc]; exact ⟨_, upd_same _ _ _⟩
  refine ⟨by simp [h.pt, tk, List.filterMap_cons], fun i => ?_, fun i v th k' t' ems d hv => ?_, fun c' hl => ?_, ?_⟩
  · by_cases hi : i = j
    · subst hi; simp [h.ps, sg, List.filterMap_cons]
    · rw [upd_other _ _ hi]; simp [h.ps, sg, List.filterMap_cons, Ne.symm hi]
  · by_cases hiv : (i, v) = (j, w)
    · obtain ⟨rfl, rfl⟩ := Prod.mk.inj hiv
      obtain ⟨d', hd⟩ := hph1
      rw [hd] at hv
      obtain ⟨rfl, rfl, rfl, rfl, rfl⟩ := Sig.Ph.waiting.inj hv
      rw [hown1, upd_same]
      exact ⟨rfl, rfl, by simp [Task.lifeStep]⟩
    · rw [hph i v hiv] at hv
      obtain ⟨h1, h2, h3⟩ := h.a i v th k' t' ems d hv
      have hne : own i v ≠ c := by rintro hx; rw [hx, hr] at h3; simp at h3
      rw [hown i v hiv]
      exact ⟨h1, by rw [upd_other _ _ hne]; exact h2, Task.life_keep hc (by simp) h3⟩
  · by_cases hcc : c' = c
    · subst hcc
      obtain ⟨d', hd⟩ := hph1
      exact ⟨[.sig j (.awaited w 0 k t)], Open.begin _ _ [.sig j (.awaited w 0 k t)] (by simp [extOf]), by rw [upd_same]; exact ⟨hown1, ⟨_, _, _, _, _, hd⟩, k, t, rfl⟩⟩
    · have hl := Task.life_back (by simpa using Ne.symm hcc) hl
      obtain ⟨mid, h1, h2⟩ := h.b c' hl
      refine ⟨_, h1.app (evs := [.task (.extSusp c), .sig j (.awaited w 0 k t)]) (by simp [extOf, Ne.symm hcc]), ?_⟩
      rw [upd_other _ _ hcc]
      have h3 := h2.app (evs := [.task (.extSusp c), .sig j (.awaited w 0 k t)]) (sl' := upd sl j (sl j ++ [.awaited w 0 k t])) (by simp [isAw]) (fun i v hat hp => by
        by_cases hiv : (i, v) = (j, w)
        · obtain ⟨rfl, rfl⟩ := Prod.mk.inj hiv
          obtain ⟨d', hd⟩ := hph1
          exact ⟨_, _, _, _, _, hd⟩
        · rw [hph i v hiv]; exact hp)
      obtain ⟨o, ho⟩ : ∃ o, at_ c' = o := ⟨_, rfl⟩
      rw [ho] at h2 h3 ⊢
      cases o with
      | none => exact h3
      | some p =>
        obtain ⟨i, v⟩ := p
        refine ⟨?_, h3.2⟩
        rw [hown i v ?_]
        · exact h3.1
        · rintro hx
          obtain ⟨rfl, rfl⟩ := Prod.mk.inj hx
          obtain ⟨_, _, _, _, _, hd⟩ := h2.2.1
          rw [hw] at hd; simp at hd
  · rw [show hist ++ [JEv.task (Task.Ev.extSusp c), .sig j (.awaited w 0 k t)] = (hist ++ [.task (.extSusp c)]) ++ [.sig j (.awaited w 0 k t)] by simp]
    have hg : Ck (okJ dec) (hist ++ [.task (.extSusp c)]) := h.g.snoc (by trivial)
    refine hg.snoc ?_
    exact ⟨rfl, hist, c, rfl⟩

/-- The wait for a signal ends, and the coroutine goes on. -/
theorem J.wake (h : J dec tl sl own at_ hist) {j w now : Nat} {x : Option α} {r : Task.Res V E} (hc : Task.Chk (Task.legal P) (tl ++ [.extRes (own j w) r])) (hr : r = .val (dec x))
    (hw : ∃ th k t ems d, (Sig.Spec.after (sl j)).ph w = .waiting th k t ems d) :
    J dec (tl ++ [.extRes (own j w) r]) (upd sl j (sl j ++ [.resumed w 0 x now false])) own at_
      (hist ++ [.sig j (.resumed w 0 x now false), .task (.extRes (own j w) r)]) := by
  obtain ⟨th, k, t, ems, d, hw⟩ := hw
  obtain ⟨rfl, hat, hlf⟩ := h.a _ _ _ _ _ _ _ hw
  have hph : ∀ i v, (i, v) ≠ (j, w) → (Sig.Spec.after (upd sl j (sl j ++ [.resumed w 0 x now false]) i)).ph v = (Sig.Spec.after (sl i)).ph v := by
    intro i v hne
    by_cases hi : i = j
    · subst hi; rw [upd_same]; exact ph_resumed (by rintro rfl; exact hne rfl)
    · rw [upd_other _ _ hi]
  have hph1 : (Sig.Spec.after (upd sl j (sl j ++ [.resumed w 0 x now false]) j)).ph w = .over := by
    rw [upd_same, Sig.Spec.after_snoc]; exact upd_same _ _ _
  refine ⟨by simp [h.pt, tk, List.filterMap_cons], fun i => ?_, fun i v th k' t' ems d hv => ?_, fun c' hl => ?_, ?_⟩
  · by_cases hi : i = j
    · subst hi; simp [h.ps, sg, List.filterMap_cons]
    · rw [upd_other _ _ hi]; simp [h.ps, sg, List.filterMap_cons, Ne.symm hi]
  · by_cases hiv : (i, v) = (j, w)
    · obtain ⟨rfl, rfl⟩ := Prod.mk.inj hiv
      rw [hph1] at hv; simp at hv
    · rw [hph i v hiv] at hv
      obtain ⟨h1, h2, h3⟩ := h.a i v th k' t' ems d hv
      have hne : own i v ≠ own j w := by
        intro hx; rw [hx, hat] at h2
        exact hiv (Option.some.inj h2).symm
      exact ⟨h1, h2, Task.life_keep hc (by simp [Ne.symm hne]) h3⟩
  · have hcc : c' ≠ own j w := by rintro rfl; simp [Task.lifeStep] at hl
    have hl := Task.life_back (by simp) hl
    obtain ⟨mid, h1, h2⟩ := h.b c' hl
    refine ⟨_, h1.app (evs := [.sig j (.resumed w 0 x now false), .task (.extRes (own j w) r)]) (by simp [extOf, Ne.symm hcc]), ?_⟩
    refine h2.app (by simp [isAw]) (fun i v ho hp => ?_)
    rw [hph i v ?_]
    · exact hp
    · intro hx
      obtain ⟨rfl, rfl⟩ := Prod.mk.inj hx
      rw [ho] at h2
      exact hcc h2.1.symm
  · rw [show hist ++ [JEv.sig j (.resumed w 0 x now false), .task (.extRes (own j w) r)] = (hist ++ [.sig j (.resumed w 0 x now false)]) ++ [.task (.extRes (own j w) r)] by simp]
    have hg : Ck (okJ dec) (hist ++ [.sig j (.resumed w 0 x now false)]) := h.g.snoc (by trivial)
    refine hg.snoc ?_
    left
    obtain ⟨mid, h1, h2⟩ := h.b _ hlf
    rw [hat] at h2
    obtain ⟨_, _, k1, t1, h2⟩ := h2
    cases mid with
    | nil => simp at h2
    | cons e m =>
      simp only [List.head?_cons, Option.some.injEq] at h2
      subst h2
      refine ⟨j, w, k1, t1, m, x, now, ?_, hr⟩
      rw [← List.cons_append]
      exact h1.app (by simp [extOf])

/-- A `co_await` of the signal of an object that does not exist. -/
theorem J.dead (h : J dec tl sl own at_ hist) {c j w t : Nat} {k : Sig.Kind} {r : Task.Res V E} (hc : Task.Chk (Task.legal P) (tl ++ [.extSusp c, .extRes c r])) (hr : r = .val (dec none))
    (hw : (Sig.Spec.after (sl j)).ph w = .unborn) :
    J dec (tl ++ [.extSusp c, .extRes c r]) (upd sl j (sl j ++ [.awaited w 0 k t, .resumed w 0 none t false])) (upd own j (upd (own j) w c)) (upd at_ c (some (j, w)))
      (hist ++ [.task (.extSusp c), .sig j (.awaited w 0 k t), .sig j (.resumed w 0 none t false), .task (.extRes c r)]) := by
  have e1 : tl ++ [Task.Ev.extSusp c, .extRes c r] = (tl ++ [.extSusp c]) ++ [.extRes c r] := by simp
  rw [e1] at hc
  have h1 := h.await (j := j) (w := w) (t := t) (k := k) hc.prefix hw
  have e3 : upd own j (upd (own j) w c) j w = c := by rw [upd_same, upd_same]
  have h2 := h1.wake (j := j) (w := w) (now := t) (x := none) (r := r) (P := P) (by rw [e3]; exact hc) hr
    (by rw [upd_same, Sig.Spec.after_snoc]; exact ⟨_, _, _, _, _, upd_same _ _ _⟩)
  rw [e3] at h2
  have e2 : upd (upd sl j (sl j ++ [Sig.Ev.awaited w 0 k t])) j ((upd sl j (sl j ++ [Sig.Ev.awaited w 0 k t])) j ++ [.resumed w 0 none t false]) =
      upd sl j (sl j ++ [.awaited w 0 k t, .resumed w 0 none t false]) := by
    funext i
    by_cases hi : i = j
    · subst hi; simp
    · simp [upd_other _ _ hi]
  rw [e2] at h2
  rw [e1]
  simpa using h2

/-- Something happens to the object of a signal: an emission, its destruction. -/
theorem J.quiet (h : J dec tl sl own at_ hist) {j : Nat} {e : Sig.Ev α} (he : (∃ th a, e = .emitted th a) ∨ e = .destroyed) :
    J dec tl (upd sl j (sl j ++ [e])) own at_ (hist ++ [.sig j e]) := by
  have hph : ∀ i v, (∃ th k t ems d, (Sig.Spec.after (upd sl j (sl j ++ [e]) i)).ph v = .waiting th k t ems d ∧ ∃ k' t' ems' d', (Sig.Spec.after (sl i)).ph v = .waiting th k' t' ems' d') ∨
      ((∀ th k t ems d, (Sig.Spec.after (upd sl j (sl j ++ [e]) i)).ph v ≠ .waiting th k t ems d) ∧ ∀ th k t ems d, (Sig.Spec.after (sl i)).ph v ≠ .waiting th k t ems d) := by
    intro i v
    by_cases hi : i = j
    · subst hi
      rw [upd_same, Sig.Spec.after_snoc]
      rcases he with ⟨th, a, rfl⟩ | rfl
      · simp only [Sig.Spec.next]
        generalize (Sig.Spec.after (sl i)).ph v = p
        cases p with
        | unborn => simp [Sig.Ph.saw]
        | over => simp [Sig.Ph.saw]
        | waiting => exact .inl ⟨_, _, _, _, _, rfl, _, _, _, _, rfl⟩
      · simp only [Sig.Spec.next]
        generalize (Sig.Spec.after (sl i)).ph v = p
        cases p with
        | unborn => simp
        | over => simp
        | waiting => exact .inl ⟨_, _, _, _, _, rfl, _, _, _, _, rfl⟩
    · rw [upd_other _ _ hi]
      generalize (Sig.Spec.after (sl i)).ph v = p
      cases p with
      | unborn => simp
      | over => simp
      | waiting => exact .inl ⟨_, _, _, _, _, rfl, _, _, _, _, rfl⟩
  refine ⟨by simp [h.pt, tk, List.filterMap_cons], fun i => ?_, fun i v th k' t' ems d hv => ?_, fun c' hl => ?_, h.g.snoc ?_⟩
  · by_cases hi : i = j
    · subst hi; simp [h.ps, sg, List.filterMap_cons]
    · rw [upd_other _ _ hi]; simp [h.ps, sg, List.filterMap_cons, Ne.symm hi]
  · rcases hph i v with ⟨th1, k1, t1, ems1, d1, h1, k2, t2, ems2, d2, h2⟩ | ⟨h1, _⟩
    · rw [h1] at hv
      obtain ⟨rfl, _⟩ := Sig.Ph.waiting.inj hv
      exact h.a _ _ _ _ _ _ _ h2
    · exact absurd hv (h1 _ _ _ _ _)
  · obtain ⟨mid, h1, h2⟩ := h.b c' hl
    refine ⟨_, h1.app (evs := [.sig j e]) (by simp [extOf]), h2.app ?_ ?_⟩
    · rcases he with ⟨th, a, rfl⟩ | rfl <;> simp [isAw]
    · rintro i v _ ⟨th, k, t, ems, d, hp⟩
      rcases hph i v with ⟨th1, k1, t1, ems1, d1, h1, _⟩ | ⟨_, h3⟩
      · exact ⟨_, _, _, _, _, h1⟩
      · exact absurd hp (h3 _ _ _ _ _)
  · rcases he with ⟨th, a, rfl⟩ | rfl <;> trivial

/-- Something that is not a signal completes. -/
theorem J.done (h : J dec tl sl own at_ hist) {c : Nat} {r : Task.Res V E} (hc : Task.Chk (Task.legal P) (tl ++ [.extRes c r])) (hat : at_ c = none) :
    J dec (tl ++ [.extRes c r]) sl own at_ (hist ++ [.task (.extRes c r)]) := by
  have hlf : Task.life c tl = .waitExt := hc tl _ [] rfl
  refine ⟨by simp [h.pt, tk, List.filterMap_cons], fun i => by simp [h.ps, sg, List.filterMap_cons], fun i v th k' t' ems d hv => ?_, fun c' hl => ?_, h.g.snoc (.inr ?_)⟩
  · obtain ⟨h1, h2, h3⟩ := h.a i v th k' t' ems d hv
    have hne : own i v ≠ c := by intro hx; rw [hx, hat] at h2; simp at h2
    exact ⟨h1, h2, Task.life_keep hc (by simp [Ne.symm hne]) h3⟩
  · have hcc : c' ≠ c := by rintro rfl; simp [Task.lifeStep] at hl
    have hl := Task.life_back (by simp) hl
    obtain ⟨mid, h1, h2⟩ := h.b c' hl
    exact ⟨_, h1.app (evs := [.task (.extRes c r)]) (by simp [extOf, Ne.symm hcc]), h2.app (by simp [isAw]) (fun _ _ _ h => h)⟩
  · obtain ⟨mid, h1, h2⟩ := h.b _ hlf
    rw [hat] at h2
    exact ⟨mid, h1, h2⟩

end QCoro.World
