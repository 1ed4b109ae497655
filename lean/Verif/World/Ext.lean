import Verif.Task.Progress
import Verif.Task.Props
/-! # Which external waits one step of the Task layer can begin or end -/
set_option linter.unusedSimpArgs false
namespace QCoro.Task
variable {σ V E : Type}

/-- The event begins or ends a `co_await` of something that is not a Task. Specification vocabulary, no counterpart in /repo. -/
def isExt : Ev V E → Bool
  | .extSusp _ => true
  | .extRes _ _ => true
  | _ => false

/-- `s'` adds no such event. Proof vocabulary, no counterpart in /repo. -/
def R (s s' : State σ V E) : Prop := ∃ n, s'.log = s.log ++ n ∧ ∀ e ∈ n, isExt e = false

theorem R.refl (s : State σ V E) : R s s := ⟨[], by simp, by simp⟩
theorem R.same {s s' s'' : State σ V E} (h : R s s') (hl : s''.log = s'.log) : R s s'' := by
  obtain ⟨n, a, b⟩ := h; exact ⟨n, by rw [hl, a], b⟩
theorem R.emit {s s' : State σ V E} (h : R s s') {e : Ev V E} (he : isExt e = false) : R s (s'.emit e) := by
  obtain ⟨n, a, b⟩ := h
  refine ⟨n ++ [e], by simp [State.emit, a], fun x hx => ?_⟩
  rcases List.mem_append.1 hx with h | h
  · exact b x h
  · rw [List.mem_singleton.1 h]; exact he

theorem R.reply {s s' : State σ V E} (h : R s s') (who : Option Nat) (r : Resp V E) : R s (s'.reply who r) := by
  cases who <;> exact h.same rfl
theorem R.setCoro {s s' : State σ V E} (h : R s s') (c : Nat) (y : Coro σ V E) : R s (s'.setCoro c y) := h.same rfl
theorem R.setObj {s s' : State σ V E} (h : R s s') (c : Nat) (y : Obj) : R s (s'.setObj c y) := h.same rfl
theorem R.setW {s s' : State σ V E} (h : R s s') (c : Nat) (y : WCtx V E) : R s (s'.setW c y) := h.same rfl
theorem R.push {s s' : State σ V E} (h : R s s') (f : Frame) : R s (s'.push f) := h.same rfl
theorem R.pop {s s' : State σ V E} (h : R s s') : R s s'.pop := h.same rfl

theorem R.deref {s s' : State σ V E} (h : R s s') (c : Nat) : R s (Task.deref s' c) := by
  unfold Task.deref
  repeat' split
  all_goals first
    | exact h
    | exact h.same rfl
    | exact R.push (R.emit (h.setCoro _ _) rfl) _

theorem R.dropObj {s s' : State σ V E} (h : R s s') (o : Nat) : R s (Task.dropObj s' o) := by
  unfold Task.dropObj
  split
  · exact h.same rfl
  · exact R.deref (h.setObj _ _) _

theorem R.moveObj {s s' : State σ V E} (h : R s s') (o : Nat) (w : Owner) : R s (Task.moveObj s' o w) := h.same rfl

theorem R.moveArgs {s : State σ V E} (as : List Nat) : ∀ {s' : State σ V E}, R s s' → R s (Task.moveArgs s' as).1 := by
  induction as with
  | nil => exact fun h => h
  | cons a as ih =>
    intro s' h
    unfold Task.moveArgs
    split
    · exact ih (h.moveObj _ _)
    · exact h

theorem R.spawn {s s' : State σ V E} (h : R s s') (P : Prog σ V E) (k code ps v own) : R s (Task.spawn P s' k code ps v own) := by
  cases k with
  | lazy => exact R.emit (h.same rfl) rfl
  | eager => exact R.push (R.emit (R.emit (h.same rfl) rfl) rfl) (.body s'.nc)

theorem R.awaitObj {s s' : State σ V E} (h : R s s') (P : Prog σ V E) (c o : Nat) (priv : Bool) : R s (Task.awaitObj P s' c o priv) := by
  unfold Task.awaitObj
  repeat' split
  all_goals first
    | exact h
    | exact R.pop (R.emit (h.same rfl) rfl)
    | exact R.emit (R.reply (h.setCoro _ _) _ _) rfl
    | exact R.push (R.emit (R.pop (R.emit (h.same rfl) rfl)) rfl) (.body (by assumption))

theorem R.finish {s s' : State σ V E} (h : R s s') (c : Nat) (r : Res V E) : R s (Task.finish s' c r) :=
  R.push (R.pop (R.emit (h.same rfl) rfl)) (.final c)

theorem R.doUser (P : Prog σ V E) (who : Option Nat) (a : UAct σ V E) (ha : who = none ∨ ∀ r, a ≠ .awaitExt r) {s s' : State σ V E} (h : R s s') : R s (Task.doUser P s' who a) := by
  cases a with
  | ret v => cases who with
    | none => exact h
    | some c => exact h.finish _ _
  | throw v => cases who with
    | none => exact h
    | some c => exact h.finish _ _
  | call k code v args =>
    simp only [Task.doUser]
    have h1 := h.moveArgs args
    split
    · exact h1
    · refine R.spawn ?_ _ _ _ _ _ _
      cases who with
      | none => exact h1
      | some c => exact h1.same rfl
  | await o => cases who with
    | none => exact h
    | some c => exact h.awaitObj _ _ _ _
  | awaitExt r =>
    rcases ha with rfl | ha
    · cases r <;> exact h
    · exact absurd rfl (ha r)
  | drop o =>
    simp only [Task.doUser]
    split
    · exact (h.reply _ _).dropObj _
    · exact h
  | moveNew o =>
    simp only [Task.doUser]
    split
    · exact (h.reply _ _).moveObj _ _
    · exact h
  | moveAssign d c =>
    simp only [Task.doUser]
    split
    · split
      · exact h.reply _ _
      · split
        · exact (h.reply _ _).push _
        · exact R.deref (R.push ((h.reply _ _).setObj _ _) _) _
    · exact h
  | mkNull k =>
    simp only [Task.doUser]
    refine R.reply (s' := { s'.setObj s'.no { alive := true, kind := k } with no := s'.no + 1 }) ?_ _ _
    exact h.same rfl
  | isReady o =>
    simp only [Task.doUser]
    repeat' split
    all_goals first
      | exact h
      | exact R.emit (h.reply _ _) rfl
  | waitFor o b =>
    simp only [Task.doUser]
    split
    · refine R.spawn (R.push (R.emit (s' := { s'.setW s'.nw { alive := true, isVoid := b, caller := who } with nw := s'.nw + 1 }) (h.same rfl)
        (e := .waitCall s'.nw s'.nc (s'.aim o)) rfl) _) _ _ _ _ _ _
    · exact h
  | thenL o cfg =>
    simp only [Task.doUser]
    split
    · exact R.spawn (R.reply (R.emit h rfl) _ _) _ _ _ _ _ _
    · exact h
  | thenR o cfg =>
    simp only [Task.doUser]
    split
    · exact R.spawn (R.reply (R.moveObj (R.emit h rfl) _ _) _ _) _ _ _ _ _ _
    · exact h
  | connect o q code =>
    simp only [Task.doUser]
    split
    · exact R.spawn (R.push (R.reply (R.emit h rfl) _ _) _) _ _ _ _ _ _
    · exact h
  | delCtx q =>
    simp only [Task.doUser]
    refine R.emit (R.reply (s' := { s' with qalive := fun i => if i = q then false else s'.qalive i }) ?_ _ _) rfl
    exact h.same rfl
  | note n => exact R.emit (h.reply _ _) rfl

theorem R.doAct (P : Prog σ V E) (c : Nat) (a : Act σ V E) (ha : ∀ r, a ≠ .u (.awaitExt r)) {s s' : State σ V E} (h : R s s') : R s (Task.doAct P s' c a) := by
  cases a with
  | u a => exact h.doUser P (some c) a (.inr fun r hr => ha r (by rw [hr]))
  | markCb v => exact R.emit (h.reply _ _) rfl
  | markErr v => exact R.emit (h.reply _ _) rfl
  | ctxAlive q v =>
    simp only [Task.doAct]
    split
    · exact R.emit (h.reply _ _) rfl
    · exact R.emit (h.reply _ _) rfl
  | waitDone w r =>
    simp only [Task.doAct]
    split
    · exact R.reply (h.setW _ _) _ _
    · exact h
  | callTmp k code v =>
    simp only [Task.doAct]
    exact R.spawn (R.emit (h.setCoro _ _) rfl) _ _ _ _ _ _
  | awaitTmp o => exact h.awaitObj _ _ _ _
  | dropTmp o =>
    simp only [Task.doAct]
    split
    · exact (h.reply _ _).dropObj _
    · exact h
  | stuck => exact h

theorem R.waitReturn (P : Prog σ V E) {s s' : State σ V E} (h : R s s') (w : Nat) : R s (Task.waitReturn P s' w) := by
  unfold Task.waitReturn
  dsimp only
  repeat' split
  all_goals first
    | exact h
    | exact R.emit (R.reply (R.pop (h.setW _ _)) _ _) rfl

/-- The three kinds of steps. Proof vocabulary, no counterpart in /repo. -/
def ExtStep (s s' : State σ V E) : Prop :=
  R s s' ∨ (∃ c, s'.log = s.log ++ [.extSusp c]) ∨ ∃ c r, s'.log = s.log ++ [.extSusp c, .extRes c r]

theorem ext_run (P : Prog σ V E) (s : State σ V E) : ExtStep s (Task.run P s) := by
  have h := R.refl s
  unfold Task.run
  split
  · exact .inl h
  · split
    · exact .inl h
    · split
      · exact .inl h
      · rename_i c _ _ _ _ code _
        dsimp only
        by_cases ha : ∃ r, (codeNext P (s.coro c).owned code (s.coro c).inp).2 = .u (.awaitExt r)
        · obtain ⟨r, hr⟩ := ha
          rw [hr]
          cases r with
          | none => exact .inr (.inl ⟨c, rfl⟩)
          | some r => exact .inr (.inr ⟨c, r, by simp [Task.doAct, Task.doUser, State.emit, State.reply, State.setCoro]⟩)
        · exact .inl (R.doAct P c _ (fun r hr => ha ⟨r, hr⟩) (h.setCoro _ _))
  all_goals left
  · split
    · exact h
    · split
      · dsimp only
        repeat' split
        all_goals first
          | exact h.same rfl
          | exact ⟨[.gotWoken _ _ _], rfl, by simp [isExt]⟩
      · exact R.deref (R.pop (h.setCoro _ _)) _
  · split
    · exact h.pop
    · dsimp only
      split
      · exact R.dropObj (R.push h.pop _) _
      · exact h.same rfl
  · dsimp only
    split
    · exact h.pop.same rfl
    · exact h.pop
  · dsimp only
    split
    · exact R.dropObj (R.push h.pop _) _
    · exact h.same rfl
  · split
    · exact h.waitReturn P _
    · exact ⟨[.loopEnter _], rfl, by simp [isExt]⟩
  · split
    · exact h.waitReturn P _
    · exact h

/-- A step that is not a completion from outside: it begins no external wait, or exactly one, which is then pending, or exactly one that was ready. -/
theorem ext_step (P : Prog σ V E) (s : State σ V E) (op : Op σ V E) (hop : ∀ c r, op ≠ .fire c r) : ExtStep s (Task.step P s op) := by
  have h := R.refl s
  unfold Task.step
  split
  · exact .inl h
  · split
    · exact ext_run P s
    · split
      · exact .inl (h.doUser P none _ (.inl rfl))
      · exact .inl h
    · exact absurd rfl (hop _ _)
    · split
      · exact .inl (R.emit (h.same rfl) rfl)
      · exact .inl h

/-- A completion from outside. -/
theorem ext_fire (P : Prog σ V E) (s : State σ V E) (c : Nat) (r : Res V E) (hu : s.ub = none) (hm : s.mayAct = true) (hs : (s.coro c).status = .waitExt) :
    (Task.step P s (.fire c r)).log = s.log ++ [.extRes c r] := by
  simp [Task.step, hu, hm, hs, State.push, State.emit, State.setCoro]

theorem ext_fire_cases (P : Prog σ V E) (s : State σ V E) (c : Nat) (r : Res V E) :
    (Task.step P s (.fire c r)).log = s.log ∨ (Task.step P s (.fire c r)).log = s.log ++ [.extRes c r] := by
  simp only [Task.step]
  split
  · exact .inl rfl
  · split
    · exact .inr rfl
    · exact .inl rfl

/-! ### What that does to who waits -/

theorem life_keep {P : Prog σ V E} {c : Nat} {l n : List (Ev V E)} (hc : Chk (legal P) (l ++ n)) (hn : ∀ e ∈ n, ∀ r, e ≠ .extRes c r) (h : life c l = .waitExt) :
    life c (l ++ n) = .waitExt := by
  induction n using snocInd with
  | nil => simpa using h
  | snoc n e ih =>
    rw [← List.append_assoc] at hc ⊢
    have ih := ih hc.prefix (fun e he => hn e (by simp [he]))
    have hl := hc (l ++ n) e [] rfl
    rw [life_snoc]
    have he := hn e (by simp)
    cases e <;> simp only [legal] at hl <;> simp only [lifeStep] <;> grind

theorem life_back {c : Nat} {l n : List (Ev V E)} (hn : ∀ e ∈ n, e ≠ .extSusp c) (h : life c (l ++ n) = .waitExt) : life c l = .waitExt := by
  induction n using snocInd with
  | nil => simpa using h
  | snoc n e ih =>
    rw [← List.append_assoc, life_snoc] at h
    have he := hn e (by simp)
    apply ih (fun e he => hn e (by simp [he]))
    cases e <;> simp only [lifeStep] at h <;> grind

end QCoro.Task
