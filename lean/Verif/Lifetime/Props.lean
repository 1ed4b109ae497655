import Verif.Lifetime.Model
/-
C80: which of the objects passed to it by reference a library function may touch after the call has returned to its caller.
-/
namespace QCoro.Lifetime
open Stmt

/-! ### Specification -/

/-- Some caller who destroys only `r`, and only after the call has returned, gets undefined behaviour. -/
def Dangles (s : Stmt) (r : Ref) : Prop :=
  ∃ a, Runs s a ∧ Polite a ∧ (∀ r', .destroy r' ∈ a → r' = r) ∧ ub [] a = true

/-- `then` yields a LazyTask: the callback returns one, or it returns no task at all and `then` is called on one. -/
inductive YieldsLazy : (onLazy : Bool) → Result → Prop
  | callback (onLazy) : YieldsLazy onLazy .lazyTask
  | same : YieldsLazy true .plain

/-- The references that may be used after the call has returned. Everything not listed is safe to destroy from then on. -/
def Unsafe : Fn → Ref → Prop
  | .write _, .self => True
  | .then_ _ onLazy result _, .callback => YieldsLazy onLazy result
  | .then_ _ onLazy result _, .handler => YieldsLazy onLazy result
  | .then_ onTemporary onLazy result _, .task => onTemporary = false ∧ YieldsLazy onLazy result
  | .toTask .itself, .awaitable => True
  | _, _ => False

/-! ### Runs that use an object late -/

/-- Some complete run uses `r` after a suspension. -/
def Late (s : Stmt) (r : Ref) : Prop := ∃ u v w, s.Trace (u ++ .suspend :: v ++ .use r :: w)

/-- Can it suspend? -/
def susp : Stmt → Bool
  | .nop | .use _ => false
  | .wait | .park => true
  | .seq a b | .alt a b => susp a || susp b
  | .many a => susp a

/-- Can it use `r`? -/
def uses (r : Ref) : Stmt → Bool
  | .nop | .wait | .park => false
  | .use r' => decide (r = r')
  | .seq a b | .alt a b => uses r a || uses r b
  | .many a => uses r a

/-- Can it use `r` after having suspended? -/
def late (r : Ref) : Stmt → Bool
  | .nop | .wait | .park | .use _ => false
  | .seq a b => late r a || late r b || (susp a && uses r b)
  | .alt a b => late r a || late r b
  | .many a => late r a || (susp a && uses r a)

theorem lazy_iff (onLazy result) : lazyResult onLazy result = true ↔ YieldsLazy onLazy result := by
  constructor
  · intro h
    cases result with
    | plain => cases onLazy <;> first | exact .same | cases h
    | task => cases h
    | lazyTask => exact .callback _
  · rintro (_ | _) <;> rfl

theorem total (s : Stmt) : ∃ t, s.Trace t := by
  induction s with
  | nop => exact ⟨_, .nop⟩
  | use r => exact ⟨_, .use r⟩
  | wait => exact ⟨_, .ready⟩
  | park => exact ⟨_, .park⟩
  | seq a b iha ihb => obtain ⟨s, hs⟩ := iha; obtain ⟨t, ht⟩ := ihb; exact ⟨_, .seq hs ht⟩
  | alt a b iha _ => obtain ⟨s, hs⟩ := iha; exact ⟨_, .left hs⟩
  | many a _ => exact ⟨_, .stop⟩

theorem susp_sound {s : Stmt} {t} (h : s.Trace t) : .suspend ∈ t → susp s = true := by
  induction h with
  | nop | use | ready => simp
  | wait | park => simp [susp]
  | seq _ _ ih1 ih2 => intro h; rcases List.mem_append.1 h with h | h <;> simp [susp, ih1, ih2, h]
  | left _ ih => intro h; simp [susp, ih h]
  | right _ ih => intro h; simp [susp, ih h]
  | stop => simp
  | again _ _ ih1 ih2 => intro h; exact (List.mem_append.1 h).elim ih1 ih2

theorem susp_complete (s : Stmt) : susp s = true → ∃ t, s.Trace t ∧ .suspend ∈ t := by
  induction s with
  | nop => simp [susp]
  | use r => simp [susp]
  | wait => exact fun _ => ⟨_, .wait, by simp⟩
  | park => exact fun _ => ⟨_, .park, by simp⟩
  | seq a b iha ihb =>
    intro h
    obtain ⟨s, hs⟩ := total a
    obtain ⟨t, ht⟩ := total b
    rcases Bool.or_eq_true_iff.mp h with h | h
    · obtain ⟨s, hs, hm⟩ := iha h; exact ⟨_, .seq hs ht, by simp [hm]⟩
    · obtain ⟨t, ht, hm⟩ := ihb h; exact ⟨_, .seq hs ht, by simp [hm]⟩
  | alt a b iha ihb =>
    intro h
    rcases Bool.or_eq_true_iff.mp h with h | h
    · obtain ⟨s, hs, hm⟩ := iha h; exact ⟨_, .left hs, hm⟩
    · obtain ⟨s, hs, hm⟩ := ihb h; exact ⟨_, .right hs, hm⟩
  | many a iha =>
    intro h
    obtain ⟨s, hs, hm⟩ := iha h; exact ⟨_, .again hs .stop, by simp [hm]⟩

theorem uses_sound {r : Ref} {s : Stmt} {t} (h : s.Trace t) : .use r ∈ t → uses r s = true := by
  induction h with
  | nop | ready | wait | park => simp
  | use => simp [uses]
  | seq _ _ ih1 ih2 => intro h; rcases List.mem_append.1 h with h | h <;> simp [uses, ih1, ih2, h]
  | left _ ih => intro h; simp [uses, ih h]
  | right _ ih => intro h; simp [uses, ih h]
  | stop => simp
  | again _ _ ih1 ih2 => intro h; exact (List.mem_append.1 h).elim ih1 ih2

theorem uses_complete (r : Ref) (s : Stmt) : uses r s = true → ∃ t, s.Trace t ∧ .use r ∈ t := by
  induction s with
  | nop | wait | park => simp [uses]
  | use r' => intro h; have h := of_decide_eq_true h; subst h; exact ⟨_, .use r, by simp⟩
  | seq a b iha ihb =>
    intro h
    obtain ⟨s, hs⟩ := total a
    obtain ⟨t, ht⟩ := total b
    rcases Bool.or_eq_true_iff.mp h with h | h
    · obtain ⟨s, hs, hm⟩ := iha h; exact ⟨_, .seq hs ht, by simp [hm]⟩
    · obtain ⟨t, ht, hm⟩ := ihb h; exact ⟨_, .seq hs ht, by simp [hm]⟩
  | alt a b iha ihb =>
    intro h
    rcases Bool.or_eq_true_iff.mp h with h | h
    · obtain ⟨s, hs, hm⟩ := iha h; exact ⟨_, .left hs, hm⟩
    · obtain ⟨s, hs, hm⟩ := ihb h; exact ⟨_, .right hs, hm⟩
  | many a iha =>
    intro h
    obtain ⟨s, hs, hm⟩ := iha h; exact ⟨_, .again hs .stop, by simp [hm]⟩

/-- A use after a suspension in the list. -/
def LateIn (r : Ref) (t : List Ev) : Prop := ∃ u v w, t = u ++ .suspend :: v ++ .use r :: w

theorem lateIn_nil (r) : ¬ LateIn r [] := by
  rintro ⟨u, v, w, h⟩; simp at h

theorem lateIn_cons (r e t) : LateIn r (e :: t) ↔ LateIn r t ∨ (e = .suspend ∧ .use r ∈ t) := by
  constructor
  · rintro ⟨u, v, w, h⟩
    cases u with
    | nil =>
      injection h with h1 h2
      exact .inr ⟨h1, by rw [h2]; simp⟩
    | cons x u =>
      injection h with h1 h2
      exact .inl ⟨u, v, w, h2⟩
  · rintro (⟨u, v, w, h⟩ | ⟨h, hm⟩)
    · exact ⟨e :: u, v, w, by rw [h]; rfl⟩
    · obtain ⟨v, w, hw⟩ := List.append_of_mem hm
      exact ⟨[], v, w, by rw [h, hw]; rfl⟩

theorem lateIn_append (r s t) : LateIn r (s ++ t) ↔ LateIn r s ∨ LateIn r t ∨ (.suspend ∈ s ∧ .use r ∈ t) := by
  induction s with
  | nil => simp [lateIn_nil]
  | cons e s ih =>
    rw [List.cons_append, lateIn_cons, ih, lateIn_cons, List.mem_append, List.mem_cons]
    constructor
    · rintro ((h | h | h) | ⟨h, h' | h'⟩)
      · exact .inl (.inl h)
      · exact .inr (.inl h)
      · exact .inr (.inr ⟨.inr h.1, h.2⟩)
      · exact .inl (.inr ⟨h, h'⟩)
      · exact .inr (.inr ⟨.inl h.symm, h'⟩)
    · rintro ((h | h) | h | ⟨h | h, h'⟩)
      · exact .inl (.inl h)
      · exact .inr ⟨h.1, .inl h.2⟩
      · exact .inl (.inr (.inl h))
      · exact .inr ⟨h.symm, .inr h'⟩
      · exact .inl (.inr (.inr ⟨h, h'⟩))

theorem late_sound {r : Ref} {s : Stmt} {t} (h : s.Trace t) : LateIn r t → late r s = true := by
  induction h with
  | nop | ready | stop => exact fun h => (lateIn_nil _ h).elim
  | use | wait | park => intro h; rw [lateIn_cons] at h; simp [lateIn_nil] at h
  | seq ha hb ih1 ih2 =>
    intro h
    rcases (lateIn_append _ _ _).1 h with h | h | ⟨h, h'⟩
    · simp [late, ih1 h]
    · simp [late, ih2 h]
    · simp [late, susp_sound ha h, uses_sound hb h']
  | left _ ih => intro h; simp [late, ih h]
  | right _ ih => intro h; simp [late, ih h]
  | again ha hb ih1 ih2 =>
    intro h
    rcases (lateIn_append _ _ _).1 h with h | h | ⟨h, h'⟩
    · simp [late, ih1 h]
    · exact ih2 h
    · have h1 := susp_sound ha h
      have h2 := uses_sound hb h'
      simp only [uses] at h2
      simp [late, h1, h2]

theorem late_complete (r : Ref) (s : Stmt) : late r s = true → ∃ t, s.Trace t ∧ LateIn r t := by
  induction s with
  | nop | wait | park | use => simp [late]
  | seq a b iha ihb =>
    intro h
    simp only [late, Bool.or_eq_true, Bool.and_eq_true] at h
    rcases h with (h | h) | ⟨h, h'⟩
    · obtain ⟨s, hs, hl⟩ := iha h
      obtain ⟨t, ht⟩ := total b
      exact ⟨_, .seq hs ht, (lateIn_append _ _ _).2 (.inl hl)⟩
    · obtain ⟨s, hs⟩ := total a
      obtain ⟨t, ht, hl⟩ := ihb h
      exact ⟨_, .seq hs ht, (lateIn_append _ _ _).2 (.inr (.inl hl))⟩
    · obtain ⟨s, hs, hl⟩ := susp_complete a h
      obtain ⟨t, ht, hl'⟩ := uses_complete r b h'
      exact ⟨_, .seq hs ht, (lateIn_append _ _ _).2 (.inr (.inr ⟨hl, hl'⟩))⟩
  | alt a b iha ihb =>
    intro h
    simp only [late, Bool.or_eq_true] at h
    rcases h with h | h
    · obtain ⟨s, hs, hl⟩ := iha h; exact ⟨_, .left hs, hl⟩
    · obtain ⟨s, hs, hl⟩ := ihb h; exact ⟨_, .right hs, hl⟩
  | many a iha =>
    intro h
    simp only [late, Bool.or_eq_true, Bool.and_eq_true] at h
    rcases h with h | ⟨h, h'⟩
    · obtain ⟨s, hs, hl⟩ := iha h; exact ⟨_, .again hs .stop, (lateIn_append _ _ _).2 (.inl hl)⟩
    · obtain ⟨s, hs, hl⟩ := susp_complete a h
      obtain ⟨t, ht, hl'⟩ := uses_complete r a h'
      exact ⟨_, .again hs (.again ht .stop), (lateIn_append _ _ _).2 (.inr (.inr ⟨hl, by simp [hl']⟩))⟩

theorem late_iff (r s) : Late s r ↔ late r s = true := by
  constructor
  · rintro ⟨u, v, w, h⟩; exact late_sound h ⟨u, v, w, rfl⟩
  · intro h
    obtain ⟨t, ht, u, v, w, rfl⟩ := late_complete r s h
    exact ⟨u, v, w, ht⟩

/-! ### Schedules -/

theorem proj_append (a b) : proj (a ++ b) = proj a ++ proj b := by
  induction a with
  | nil => rfl
  | cons x a ih => cases x <;> simp [proj, ih]

theorem proj_map_ev (t : List Ev) : proj (t.map .ev) = t := by
  induction t with
  | nil => rfl
  | cons e t ih => simp [proj, ih]

/-- Undefined behaviour is a use of something destroyed before. -/
theorem ub_iff (dead a) : ub dead a = true ↔
    (∃ r, r ∈ dead ∧ .ev (.use r) ∈ a) ∨ ∃ p r q, a = p ++ .destroy r :: q ∧ .ev (.use r) ∈ q := by
  induction a generalizing dead with
  | nil => simp [ub]
  | cons x a ih =>
    have key : (∃ p r q, x :: a = p ++ .destroy r :: q ∧ .ev (.use r) ∈ q) ↔
        (∃ r, x = .destroy r ∧ .ev (.use r) ∈ a) ∨ ∃ p r q, a = p ++ .destroy r :: q ∧ .ev (.use r) ∈ q := by
      constructor
      · rintro ⟨p, r, q, h, hm⟩
        cases p with
        | nil => injection h with h1 h2; exact .inl ⟨r, h1, by rw [h2]; exact hm⟩
        | cons y p => injection h with h1 h2; exact .inr ⟨p, r, q, h2, hm⟩
      · rintro (⟨r, h, hm⟩ | ⟨p, r, q, h, hm⟩)
        · exact ⟨[], r, a, by rw [h]; rfl, hm⟩
        · exact ⟨x :: p, r, q, by rw [h]; rfl, hm⟩
    rw [key]
    cases x with
    | ev e =>
      cases e with
      | use r => simp only [ub, Bool.or_eq_true, decide_eq_true_eq, ih, List.mem_cons]; grind
      | suspend => simp only [ub, ih, List.mem_cons]; grind
    | destroy r => simp only [ub, ih, List.mem_cons]; grind

theorem mem_proj (e a) : .ev e ∈ a ↔ e ∈ proj a := by
  induction a with
  | nil => simp [proj]
  | cons x a ih => cases x <;> simp [proj, ih]

/-- C80: undefined behaviour, if the caller destroys things only after the call has returned, is a use after a suspension; and every
such use is one for some caller. -/
theorem C80_dangles_iff_late (s : Stmt) (r : Ref) : Dangles s r ↔ Late s r := by
  constructor
  · rintro ⟨a, ⟨t, ht⟩, hp, hr, hu⟩
    rcases (ub_iff _ _).1 hu with ⟨_, h, _⟩ | ⟨p, r', q, h, hm⟩
    · cases h
    · have hs := hp p r' q h
      have : r' = r := hr r' (by rw [h]; simp)
      subst this
      obtain ⟨u, v, hv⟩ := List.append_of_mem hs
      obtain ⟨x, y, hy⟩ := List.append_of_mem ((mem_proj _ _).1 hm)
      refine ⟨u, v ++ x, y ++ t, ?_⟩
      have e : proj a ++ t = u ++ .suspend :: (v ++ x) ++ .use r' :: (y ++ t) := by
        rw [h, proj_append, proj, hv, hy]; simp
      rw [← e]; exact ht
  · rintro ⟨u, v, w, h⟩
    refine ⟨(u ++ [Ev.suspend]).map .ev ++ .destroy r :: (v ++ .use r :: w).map .ev, ⟨[], ?_⟩, ?_, ?_, ?_⟩
    · rw [proj_append, proj_map_ev, proj, proj_map_ev]
      simpa using h
    · intro p r' q hq
      have : proj p = u ++ [Ev.suspend] := by
        have key : ∀ (l : List Ev) (m p : List Act) (r' : Ref) (q : List Act), .destroy r' ∉ m → (∀ r, .destroy r ∉ m) →
            l.map Act.ev ++ .destroy r :: m = p ++ .destroy r' :: q → proj p = l := by
          intro l
          induction l with
          | nil =>
            intro m p r' q _ hm e
            cases p with
            | nil => rfl
            | cons y p =>
              injection e with e1 e2
              exact absurd (by rw [e2]; simp : Act.destroy r' ∈ m) (hm r')
          | cons z l ih =>
            intro m p r' q h1 hm e
            cases p with
            | nil => simp at e
            | cons y p =>
              injection e with e1 e2
              rw [← e1, proj, ih m p r' q h1 hm e2]
        refine key (u ++ [Ev.suspend]) _ p r' q ?_ ?_ hq <;> simp
      rw [this]; simp
    · intro r' hm; simpa using hm
    · rw [ub_iff]
      exact .inr ⟨_, r, _, rfl, by simp⟩

theorem C80_late_iff (f : Fn) (r : Ref) : Late (body f) r ↔ Unsafe f r := by
  rw [late_iff]
  cases f with
  | readAll d | read d | readLine d | write d | waitForReadyRead d | waitForReadyReadInt d | waitForBytesWritten d
  | waitForBytesWrittenInt d => cases d <;> cases r <;> simp [Unsafe] <;> decide
  | then_ a b c e => cases a <;> cases b <;> cases c <;> cases e <;> cases r <;> simp [Unsafe, ← lazy_iff, lazyResult] <;> decide
  | toTask k => cases k <;> cases r <;> simp [Unsafe] <;> decide
  | _ => cases r <;> simp [Unsafe] <;> decide

/-- C80, the table: the functions which may use an object after the call has returned, and which. Everything else may be destroyed as
soon as the call returns. -/
theorem C80_dangles_iff (f : Fn) (r : Ref) : Dangles (body f) r ↔ Unsafe f r :=
  (C80_dangles_iff_late _ _).trans (C80_late_iff f r)

/-- C80, for the caller: a caller who destroys, after the call has returned and in any order, any number of objects that are not in the
table gets no undefined behaviour, in any run. -/
theorem C80_safe (f : Fn) (a : List Act) (h : Runs (body f) a) (hp : Polite a) (hs : ∀ r, .destroy r ∈ a → ¬ Unsafe f r) :
    ub [] a = false := by
  refine Bool.eq_false_iff.2 fun hu => ?_
  rcases (ub_iff _ _).1 hu with ⟨_, h', _⟩ | ⟨p, r, q, e, hm⟩
  · cases h'
  · refine hs r (by rw [e]; simp) ((C80_late_iff f r).1 ?_)
    obtain ⟨u, v, hv⟩ := List.append_of_mem (hp p r q e)
    obtain ⟨x, y, hy⟩ := List.append_of_mem ((mem_proj _ _).1 hm)
    obtain ⟨t, ht⟩ := h
    refine ⟨u, v ++ x, y ++ t, ?_⟩
    have e' : proj a ++ t = u ++ .suspend :: (v ++ x) ++ .use r :: (y ++ t) := by
      rw [e, proj_append, proj, hv, hy]; simp
    rw [← e']; exact ht

/-- C80: the error handler `then()` makes itself is dead as soon as `then()` has returned. If the continuation is lazy, every complete
run of it uses the dead handler, however it is awaited. -/
theorem C80_default_handler (onTemporary onLazy result) (hl : YieldsLazy onLazy result) (p q : List Act)
    (hp : proj p = (if onTemporary then [.use .task] else []) ++ [.suspend])
    (h : (body (.then_ onTemporary onLazy result false)).Trace (proj (p ++ .destroy .handler :: q))) :
    ub [] (p ++ .destroy .handler :: q) = true := by
  rw [← lazy_iff] at hl
  refine (ub_iff _ _).2 (.inr ⟨p, .handler, q, rfl, ?_⟩)
  rw [mem_proj]
  rw [proj_append, proj] at h
  simp only [body, thenImpl, hl, if_true] at h
  have key : ∀ t : List Ev, (Stmt.park ;; .use .callback ;; .use .handler ;; (if onTemporary then Stmt.nop else .use .task) ;; .wait ;;
      .alt .nop .wait).Trace (.suspend :: t) → Ev.use .handler ∈ t := by
    intro t ht
    generalize e : Ev.suspend :: t = l at ht
    cases ht with
    | seq h1 h2 =>
      cases h1
      injection e with _ e
      subst e
      cases h2 with
      | seq h3 h4 =>
        cases h3
        cases h4 with
        | seq h5 h6 => cases h5; simp
  cases onTemporary with
  | true =>
    rw [hp] at h
    generalize e : ((if true = true then [Ev.use .task] else []) ++ [Ev.suspend]) ++ proj q = l at h
    cases h with
    | seq h1 h2 =>
      cases h1
      injection e with _ e
      have e : Ev.suspend :: proj q = _ := e
      exact key _ (by rw [e]; exact h2)
  | false =>
    rw [hp] at h
    generalize e : ((if false = true then [Ev.use .task] else []) ++ [Ev.suspend]) ++ proj q = l at h
    cases h with
    | seq h1 h2 =>
      cases h1
      have e : Ev.suspend :: proj q = _ := e
      exact key _ (by rw [e]; exact h2)

/-- C80: an image provider's coroutine gets references to the id and the size which are dead once it has suspended: exactly the
implementations that use them later have undefined behaviour; `requestImageResponse` copies nothing. -/
theorem C80_image (b : Stmt) (r : Ref) : Dangles (image b) r ↔ Late b r := by
  rw [C80_dangles_iff_late, late_iff, late_iff]
  simp [image, late, uses]

/-! ### The hypotheses are met -/

/-- A write of which the first part is confirmed: the wrapper is destroyed meanwhile, the loop calls a member function of it. -/
example : ∃ a, Runs (body (.write .device)) a ∧ Polite a ∧ ub [] a = true :=
  let ⟨a, h1, h2, _, h3⟩ := (C80_dangles_iff (.write .device) .self).2 trivial
  ⟨a, h1, h2, h3⟩

/-- A read with wrapper and all gone while it waits. -/
example : Runs (body (.readAll .reply)) ([.use .self, .use .self, .use .self, .use .self, .use .self, .use .self, .suspend].map .ev
    ++ [.destroy .self]) := by
  have h : (body (.readAll .reply)).Trace _ :=
    .seq (.use _) (.seq (.use _) (.seq (.use _) (.right (.seq (.use _) (.right (.seq (.use _) (.seq (.use _) (.right .wait))))))))
  exact ⟨[], h⟩

/-- A complete run of the continuation of a LazyTask, its default error handler gone since `then()` returned. -/
example : (body (.then_ true true .plain false)).Trace (proj ([.ev (.use .task), .ev .suspend] ++ .destroy .handler ::
    [.ev (.use .callback), .ev (.use .handler), .ev .suspend])) :=
  .seq (.use _) (.seq .park (.seq (.use _) (.seq (.use _) (.seq .nop (.seq .wait (.left .nop))))))

/-- An image provider that first waits and then looks at the id, and one that looks first. -/
example : Dangles (image (.wait ;; .use .data)) .data ∧ ¬ Dangles (image (.use .data ;; .wait)) .data := by
  rw [C80_image, C80_image, late_iff, late_iff]; decide

end QCoro.Lifetime
