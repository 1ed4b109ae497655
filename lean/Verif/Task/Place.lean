import Verif.Task.Progress
import Verif.Task.Props
/-! # C85: on which thread a coroutine runs -/
set_option linter.unusedSimpArgs false
namespace QCoro.Task
variable {σ V E : Type}

/-! ### Specification -/

/-- A schedule in which every step is made by some thread. Specification vocabulary, no counterpart in /repo. -/
abbrev Sched (σ V E : Type) := List (Nat × Op σ V E)

/-- What the threads do, without the threads. Specification vocabulary, no counterpart in /repo. -/
def opsOf (l : Sched σ V E) : List (Op σ V E) := l.map (·.2)

/-- One step, by thread `p.1`: the events of the step happen on that thread. Specification vocabulary, no counterpart in /repo. -/
def tstep (P : Prog σ V E) (x : State σ V E × List (Nat × Ev V E)) (p : Nat × Op σ V E) : State σ V E × List (Nat × Ev V E) :=
  (step P x.1 p.2, x.2 ++ ((step P x.1 p.2).log.drop x.1.log.length).map (fun e => (p.1, e)))

/-- The history, every event with its thread. Specification vocabulary, no counterpart in /repo. -/
def thist (P : Prog σ V E) (l : Sched σ V E) : List (Nat × Ev V E) := (l.foldl (tstep P) (init, [])).2

/-- Another thread takes its turn only when the one before has come back to its event loop. Specification vocabulary, no counterpart in /repo. -/
def TurnByTurn (P : Prog σ V E) (l : Sched σ V E) : Prop :=
  ∀ a t op b, l = a ++ (t, op) :: b → (exec P (opsOf a)).stack = [] ∨ a.getLast?.map (·.1) = some t

/-- The event makes coroutine `c` execute: its body begins, or its `co_await` completes. Specification vocabulary, no counterpart in /repo. -/
def enters (c : Nat) : Ev V E → Bool
  | .started d => d == c
  | .gotWoken a _ _ => a == c
  | .extRes a _ => a == c
  | _ => false

/-- The thread on which `c` was last made to execute. Specification vocabulary, no counterpart in /repo. -/
def place (c : Nat) (l : List (Nat × Ev V E)) : Option Nat := (l.filter (fun p => enters c p.2)).getLast?.map (·.1)

/-- Events that a coroutine performs itself. Specification vocabulary, no counterpart in /repo. -/
def performer : Ev V E → Option Nat
  | .awaitReg a _ => some a
  | .gotReady a _ _ => some a
  | .hung a => some a
  | .extSusp a => some a
  | .finished c _ => some c
  | .cb t _ => some t
  | .err t _ => some t
  | .cbTask t _ => some t
  | .guardDead t => some t
  | .note a _ => a
  | _ => none

/-! ### What one step adds -/

/-- Who may have made the event, given the innermost activation. -/
def okEv (top : Option Frame) (x : Option (Nat × Res V E)) (e : Ev V E) : Prop :=
  (∀ c, performer e = some c → top = some (.body c)) ∧ (∀ a d r, e = .gotWoken a d r → top = some (.final d)) ∧
  (∀ a r, e = .extRes a r → top = some (.body a) ∨ x = some (a, r))

/-- An activation that is new. -/
def fresh (top : Option Frame) (n : List (Ev V E)) : Frame → Prop
  | .body c => ∃ e ∈ n, enters c e = true
  | .final c => top = some (.body c) ∧ ∃ r, .finished c r ∈ n
  | _ => True

/-- What precedes the start of a body. -/
def starts (n : List (Ev V E)) : Prop :=
  ∀ c p q, n = p ++ .started c :: q → ∃ p', p = p' ++ [.spawned c .eager] ∨ ∃ a, p = p' ++ [.awaitReg a c]

/-- `s'` adds events and activations to `s` as code under `top` may. -/
def Q (top : Option Frame) (x : Option (Nat × Res V E)) (s s' : State σ V E) : Prop :=
  ∃ n, s'.log = s.log ++ n ∧ (∀ f ∈ s'.stack, f ∈ s.stack ∨ fresh top n f) ∧ (∀ e ∈ n, okEv top x e) ∧ starts n

theorem fresh_mono {top : Option Frame} {n m : List (Ev V E)} {f : Frame} (h : fresh top n f) (hs : ∀ e ∈ n, e ∈ m) : fresh top m f := by
  cases f with
  | body c => obtain ⟨e, he, h⟩ := h; exact ⟨e, hs e he, h⟩
  | final c => obtain ⟨h1, r, h⟩ := h; exact ⟨h1, r, hs _ h⟩
  | _ => trivial

theorem starts_append {n m : List (Ev V E)} (h1 : starts n) (h2 : starts m) : starts (n ++ m) := by
  intro c p q e
  rcases List.append_eq_append_iff.1 e with ⟨as, e1, e2⟩ | ⟨bs, e1, e2⟩
  · obtain ⟨p', h | ⟨a, h⟩⟩ := h2 c as q e2
    · exact ⟨n ++ p', .inl (by rw [e1, h]; simp)⟩
    · exact ⟨n ++ p', .inr ⟨a, by rw [e1, h]; simp⟩⟩
  · cases bs with
    | nil =>
      simp at e1 e2
      have := h2 c [] q (by simpa using e2.symm)
      obtain ⟨p', h | ⟨a, h⟩⟩ := this <;> simp at h
    | cons b bs =>
      simp at e2
      exact h1 c p bs (by rw [e1, ← e2.1])

variable {x : Option (Nat × Res V E)}

theorem Q.refl (top : Option Frame) (x : Option (Nat × Res V E)) (s : State σ V E) : Q top x s s := ⟨[], by simp, fun f hf => .inl hf, by simp, by intro c p q e; simp at e⟩

theorem Q.trans {top : Option Frame} {s s' s'' : State σ V E} (h1 : Q top x s s') (h2 : Q top x s' s'') : Q top x s s'' := by
  obtain ⟨n, l1, f1, o1, t1⟩ := h1
  obtain ⟨m, l2, f2, o2, t2⟩ := h2
  refine ⟨n ++ m, by rw [l2, l1]; simp, fun f hf => ?_, fun e he => ?_, starts_append t1 t2⟩
  · rcases f2 f hf with h | h
    · rcases f1 f h with h | h
      · exact .inl h
      · exact .inr (fresh_mono h (by simp +contextual))
    · exact .inr (fresh_mono h (by simp +contextual))
  · rcases List.mem_append.1 he with h | h
    · exact o1 e h
    · exact o2 e h

theorem Q.same {top : Option Frame} {s s' s'' : State σ V E} (h : Q top x s s') (hl : s''.log = s'.log) (hs : ∀ f ∈ s''.stack, f ∈ s'.stack) : Q top x s s'' := by
  obtain ⟨n, l, f, o, t⟩ := h
  exact ⟨n, by rw [hl, l], fun g hg => f g (hs g hg), o, t⟩

theorem Q.emit {top : Option Frame} {s s' : State σ V E} {e : Ev V E} (h : Q top x s s') (he : okEv top x e) (hn : ∀ c, e ≠ .started c) : Q top x s (s'.emit e) := by
  refine h.trans ⟨[e], rfl, fun f hf => .inl hf, fun x hx => by rw [List.mem_singleton.1 hx]; exact he, ?_⟩
  intro c p q e'
  cases p with
  | nil => simp at e'; exact absurd e'.1 (hn c)
  | cons a p => simp at e'

theorem Q.push {top : Option Frame} {s s' : State σ V E} {f : Frame} (h : Q top x s s') (hf : ∀ n : List (Ev V E), fresh top n f) : Q top x s (s'.push f) := by
  refine h.trans ⟨[], by simp [State.push], fun g hg => ?_, by simp, by intro c p q e; simp at e⟩
  simp [State.push] at hg
  rcases hg with rfl | hg
  · exact .inr (hf _)
  · exact .inl hg

/-- Activations of the library that are not coroutines. -/
def Frame.plain : Frame → Bool
  | .body _ => false
  | .final _ => false
  | _ => true

theorem Q.pushP {top : Option Frame} {s s' : State σ V E} {f : Frame} (h : Q top x s s') (hf : f.plain = true) : Q top x s (s'.push f) :=
  h.push (fun _ => by cases f <;> simp [Frame.plain] at hf <;> trivial)

theorem Q.pop {top : Option Frame} {s s' : State σ V E} (h : Q top x s s') : Q top x s s'.pop :=
  h.same rfl (fun _ hf => List.mem_of_mem_tail hf)

theorem Q.reply {top : Option Frame} {s s' : State σ V E} (h : Q top x s s') (who : Option Nat) (r : Resp V E) : Q top x s (s'.reply who r) := by
  cases who <;> exact h.same rfl (fun _ hf => hf)

theorem Q.setCoro {top : Option Frame} {s s' : State σ V E} (h : Q top x s s') (c : Nat) (y : Coro σ V E) : Q top x s (s'.setCoro c y) := h.same rfl (fun _ hf => hf)
theorem Q.setObj {top : Option Frame} {s s' : State σ V E} (h : Q top x s s') (c : Nat) (y : Obj) : Q top x s (s'.setObj c y) := h.same rfl (fun _ hf => hf)
theorem Q.setW {top : Option Frame} {s s' : State σ V E} (h : Q top x s s') (c : Nat) (y : WCtx V E) : Q top x s (s'.setW c y) := h.same rfl (fun _ hf => hf)

theorem Q.quiet {top : Option Frame} {s s' : State σ V E} {e : Ev V E} (h : Q top x s s') (he : performer e = none) (hw : ∀ a d r, e ≠ .gotWoken a d r) (hn : ∀ c, e ≠ .started c) (hx : ∀ a r, e ≠ .extRes a r) :
    Q top x s (s'.emit e) := Q.emit h ⟨fun c hc => absurd (he.symm.trans hc) (by simp), fun a d r h => absurd h (hw a d r), fun a r h => absurd h (hx a r)⟩ hn

theorem Q.mine {c : Nat} {s s' : State σ V E} {e : Ev V E} (h : Q (some (.body c)) x s s') (he : performer e = some c) (hw : ∀ a d r, e ≠ .gotWoken a d r) (hn : ∀ c, e ≠ .started c) (hx : ∀ a r, e ≠ .extRes a r) :
    Q (some (.body c)) x s (s'.emit e) := h.emit ⟨fun d hd => by rw [he] at hd; rw [Option.some.inj hd], fun a d r h => absurd h (hw a d r), fun a r h => absurd h (hx a r)⟩ hn

theorem Q.deref {top : Option Frame} {s s' : State σ V E} (h : Q top x s s') (c : Nat) : Q top x s (Task.deref s' c) := by
  unfold Task.deref
  repeat' split
  all_goals first
    | exact h
    | exact h.same rfl (fun _ hf => hf)
    | exact Q.pushP (Q.quiet (h.setCoro _ _) rfl (by simp) (by simp) (by simp)) rfl

theorem Q.dropObj {top : Option Frame} {s s' : State σ V E} (h : Q top x s s') (o : Nat) : Q top x s (Task.dropObj s' o) := by
  unfold Task.dropObj
  split
  · exact h.same rfl (fun _ hf => hf)
  · exact Q.deref (h.setObj _ _) _

theorem Q.moveObj {top : Option Frame} {s s' : State σ V E} (h : Q top x s s') (o : Nat) (w : Owner) : Q top x s (Task.moveObj s' o w) := h.same rfl (fun _ hf => hf)

theorem Q.moveArgs {top : Option Frame} {s : State σ V E} (as : List Nat) : ∀ {s' : State σ V E}, Q top x s s' → Q top x s (Task.moveArgs s' as).1 := by
  induction as with
  | nil => exact fun h => h
  | cons a as ih =>
    intro s' h
    unfold Task.moveArgs
    split
    · exact ih (h.moveObj _ _)
    · exact h

theorem Q.spawn {top : Option Frame} {s s' : State σ V E} (h : Q top x s s') (P : Prog σ V E) (k code ps v own) : Q top x s (Task.spawn P s' k code ps v own) := by
  cases k with
  | lazy => exact Q.quiet (h.same rfl (fun _ hf => hf)) rfl (by simp) (by simp) (by simp)
  | eager =>
    refine h.trans ⟨[.spawned s'.nc .eager, .started s'.nc], by simp [Task.spawn, State.setCoro, State.setObj, State.emit, State.push], fun f hf => ?_, ?_, ?_⟩
    · simp [Task.spawn, State.setCoro, State.setObj, State.emit, State.push] at hf
      rcases hf with rfl | hf
      · exact .inr ⟨.started s'.nc, by simp, by simp [enters]⟩
      · exact .inl hf
    · intro e he
      simp at he
      rcases he with rfl | rfl
      · exact ⟨by simp [performer], by simp, by simp⟩
      · exact ⟨by simp [performer], by simp, by simp⟩
    · intro c p q e
      cases p with
      | nil => simp at e
      | cons a p =>
        cases p with
        | nil => simp at e; obtain ⟨rfl, rfl, _⟩ := e; exact ⟨[], .inl rfl⟩
        | cons b p => simp at e

theorem Q.awaitObj {c : Nat} {s s' : State σ V E} (h : Q (some (.body c)) x s s') (P : Prog σ V E) (o : Nat) (priv : Bool) : Q (some (.body c)) x s (Task.awaitObj P s' c o priv) := by
  unfold Task.awaitObj
  split
  · split
    · split
      · exact Q.pop (Q.mine (h.same rfl (fun _ hf => hf)) rfl (by simp) (by simp) (by simp))
      · exact h
    · split
      · exact h
      · split
        · split
          · exact h
          · exact Q.mine (Q.reply (h.setCoro _ _) _ _) rfl (by simp) (by simp) (by simp)
        · split
          · exact Q.pop (Q.mine (h.same rfl (fun _ hf => hf)) rfl (by simp) (by simp) (by simp))
          · split
            · rename_i d _ _ _ _ _ _
              refine h.trans ⟨[.awaitReg c d, .started d], by simp [State.setCoro, State.emit, State.push, State.pop], fun f hf => ?_, ?_, ?_⟩
              · simp [State.setCoro, State.emit, State.push, State.pop] at hf
                rcases hf with rfl | hf
                · exact .inr ⟨.started d, by simp, by simp [enters]⟩
                · exact .inl (List.mem_of_mem_tail hf)
              · intro e he
                simp at he
                rcases he with rfl | rfl
                · exact ⟨by simp [performer], by simp, by simp⟩
                · exact ⟨by simp [performer], by simp, by simp⟩
              · intro x p q e
                cases p with
                | nil => simp at e
                | cons a p =>
                  cases p with
                  | nil => simp at e; obtain ⟨rfl, rfl, _⟩ := e; exact ⟨[], .inr ⟨c, rfl⟩⟩
                  | cons b p => simp at e
            · exact h
  · exact h

theorem Q.finish {c : Nat} {s s' : State σ V E} (h : Q (some (.body c)) x s s') (r : Res V E) : Q (some (.body c)) x s (Task.finish s' c r) := by
  refine h.trans ⟨[.finished c r], by simp [Task.finish, State.setCoro, State.emit, State.push, State.pop], fun f hf => ?_, ?_, ?_⟩
  · simp [Task.finish, State.setCoro, State.emit, State.push, State.pop] at hf
    rcases hf with rfl | hf
    · exact .inr ⟨rfl, r, by simp⟩
    · exact .inl (List.mem_of_mem_tail hf)
  · intro e he
    simp at he
    subst he
    exact ⟨by simp [performer], by simp, by simp⟩
  · intro x p q e
    cases p with
    | nil => simp at e
    | cons a p => simp at e

/-- The code that acts: the main program, or the coroutine on top. -/
def acts (top : Option Frame) : Option Nat → Prop
  | none => True
  | some c => top = some (.body c)

theorem Q.doUser {top : Option Frame} {who : Option Nat} (hw : acts top who) (P : Prog σ V E) (a : UAct σ V E) {s s' : State σ V E} (h : Q top x s s') :
    Q top x s (Task.doUser P s' who a) := by
  cases a with
  | ret v => cases who with
    | none => exact h
    | some c => cases hw; exact h.finish _
  | throw v => cases who with
    | none => exact h
    | some c => cases hw; exact h.finish _
  | call k code v args =>
    simp only [Task.doUser]
    have h1 := h.moveArgs args
    split
    · exact h1
    · refine Q.spawn ?_ _ _ _ _ _ _
      cases who with
      | none => exact h1
      | some c => exact h1.same rfl (fun _ hf => hf)
  | await o => cases who with
    | none => exact h
    | some c => cases hw; exact h.awaitObj _ _ _
  | awaitExt r => cases who with
    | none => cases r <;> exact h
    | some c =>
      cases hw
      cases r with
      | none => exact Q.pop (Q.mine (h.same rfl (fun _ hf => hf)) rfl (by simp) (by simp) (by simp))
      | some r => exact Q.reply (Q.emit (Q.mine h rfl (by simp) (by simp) (by simp)) ⟨by simp [performer], by simp, by simp⟩ (by simp)) _ _
  | drop o =>
    simp only [Task.doUser]
    split
    · exact (h.reply _ _).dropObj _
    · exact h
  | moveNew o =>
    simp only [Task.doUser]
    split
    · exact (h.reply _ _).moveObj _ _
    · exact h
  | moveAssign d c =>
    simp only [Task.doUser]
    split
    · split
      · exact h.reply _ _
      · split
        · exact (h.reply _ _).pushP rfl
        · exact Q.deref (Q.pushP ((h.reply _ _).setObj _ _) rfl) _
    · exact h
  | mkNull k =>
    simp only [Task.doUser]
    refine Q.reply (s' := { s'.setObj s'.no { alive := true, kind := k } with no := s'.no + 1 }) ?_ _ _
    exact h.same rfl (fun _ hf => hf)
  | isReady o =>
    simp only [Task.doUser]
    repeat' split
    all_goals first
      | exact h
      | exact Q.quiet (h.reply _ _) rfl (by simp) (by simp) (by simp)
  | waitFor o b =>
    simp only [Task.doUser]
    split
    · refine Q.spawn (Q.pushP (Q.emit (s' := { s'.setW s'.nw { alive := true, isVoid := b, caller := who } with nw := s'.nw + 1 }) (h.same rfl (fun _ hf => hf))
        (e := .waitCall s'.nw s'.nc (s'.aim o)) ⟨by simp [performer], by simp, by simp⟩ (by simp)) rfl) _ _ _ _ _ _
    · exact h
  | thenL o cfg =>
    simp only [Task.doUser]
    split
    · exact Q.spawn (Q.reply (Q.quiet h rfl (by simp) (by simp) (by simp)) _ _) _ _ _ _ _ _
    · exact h
  | thenR o cfg =>
    simp only [Task.doUser]
    split
    · exact Q.spawn (Q.reply (Q.moveObj (Q.quiet h rfl (by simp) (by simp) (by simp)) _ _) _ _) _ _ _ _ _ _
    · exact h
  | connect o q code =>
    simp only [Task.doUser]
    split
    · exact Q.spawn (Q.pushP (Q.reply (Q.quiet h rfl (by simp) (by simp) (by simp)) _ _) rfl) _ _ _ _ _ _
    · exact h
  | delCtx q =>
    simp only [Task.doUser]
    refine Q.quiet (Q.reply (s' := { s' with qalive := fun i => if i = q then false else s'.qalive i }) ?_ _ _) rfl (by simp) (by simp) (by simp)
    exact h.same rfl (fun _ hf => hf)
  | note n =>
    cases who with
    | none => exact Q.quiet (h.reply _ _) rfl (by simp) (by simp) (by simp)
    | some c => cases hw; exact Q.mine (h.reply _ _) rfl (by simp) (by simp) (by simp)

theorem Q.doAct {c : Nat} (P : Prog σ V E) (a : Act σ V E) {s s' : State σ V E} (h : Q (some (.body c)) x s s') : Q (some (.body c)) x s (Task.doAct P s' c a) := by
  cases a with
  | u a => exact Q.doUser (who := some c) rfl P a h
  | markCb v => exact Q.mine (h.reply _ _) rfl (by simp) (by simp) (by simp)
  | markErr v => exact Q.mine (h.reply _ _) rfl (by simp) (by simp) (by simp)
  | ctxAlive q v =>
    simp only [Task.doAct]
    split
    · exact Q.mine (h.reply _ _) rfl (by simp) (by simp) (by simp)
    · exact Q.mine (h.reply _ _) rfl (by simp) (by simp) (by simp)
  | waitDone w r =>
    simp only [Task.doAct]
    split
    · exact Q.reply (h.setW _ _) _ _
    · exact h
  | callTmp k code v =>
    simp only [Task.doAct]
    exact Q.spawn (Q.mine (h.setCoro _ _) rfl (by simp) (by simp) (by simp)) _ _ _ _ _ _
  | awaitTmp o => exact h.awaitObj _ _ _
  | dropTmp o =>
    simp only [Task.doAct]
    split
    · exact (h.reply _ _).dropObj _
    · exact h
  | stuck => exact h

theorem Q.waitReturn {top : Option Frame} (P : Prog σ V E) {s s' : State σ V E} (h : Q top x s s') (w : Nat) : Q top x s (Task.waitReturn P s' w) := by
  unfold Task.waitReturn
  dsimp only
  repeat' split
  all_goals first
    | exact h
    | exact Q.quiet (Q.reply (Q.pop (h.setW _ _)) _ _) rfl (by simp) (by simp) (by simp)

theorem Q.run (P : Prog σ V E) (s : State σ V E) : Q s.stack.head? x s (Task.run P s) := by
  have h := Q.refl s.stack.head? x s
  unfold Task.run
  split
  · exact h
  · rename_i c st hs
    rw [hs] at h ⊢
    split
    · exact h
    · split
      · exact h
      · exact Q.doAct P _ (h.setCoro _ _)
  · rename_i c st hs
    rw [hs] at h ⊢
    split
    · exact h
    · split
      · rename_i a rest _
        dsimp only
        split
        · exact h.same rfl (fun _ hf => hf)
        · split
          · split
            · exact h.same rfl (fun _ hf => hf)
            · rename_i r _
              refine ⟨[.gotWoken a c r], rfl, fun f hf => ?_, ?_, ?_⟩
              · simp only [State.push, State.emit, State.setCoro] at hf
                rcases List.mem_cons.1 hf with rfl | hf
                · exact .inr ⟨.gotWoken a c r, by simp, by simp [enters]⟩
                · exact .inl hf
              · intro e he
                simp at he
                subst he
                exact ⟨by simp [performer], by intro a' d r' h'; cases h'; rfl, by simp⟩
              · intro x p q e
                cases p with
                | nil => simp at e
                | cons b p => simp at e
          · exact h.same rfl (fun _ hf => hf)
      · exact Q.deref (Q.pop (h.setCoro _ _)) _
  · split
    · exact h.pop
    · dsimp only
      split
      · exact Q.dropObj (Q.pushP h.pop rfl) _
      · exact Q.pushP h.pop rfl
  · dsimp only
    split
    · exact h.pop.same rfl (fun _ hf => hf)
    · exact h.pop
  · dsimp only
    split
    · exact Q.dropObj (Q.pushP h.pop rfl) _
    · exact Q.pushP h.pop rfl
  · split
    · exact h.waitReturn P _
    · exact Q.quiet (Q.pushP h.pop rfl) rfl (by simp) (by simp) (by simp)
  · split
    · exact h.waitReturn P _
    · exact h

/-- What a step completes from outside. -/
def fired : Op σ V E → Option (Nat × Res V E)
  | .fire c r => some (c, r)
  | _ => none

theorem Q.step (P : Prog σ V E) (s : State σ V E) (op : Op σ V E) : Q s.stack.head? (fired op) s (Task.step P s op) := by
  have h := Q.refl s.stack.head? (fired op) s
  unfold Task.step
  split
  · exact h
  · split
    · exact Q.run P s
    · split
      · exact h.doUser (who := none) trivial _ _
      · exact h
    · split
      · rename_i c r _
        refine ⟨[.extRes c r], rfl, fun f hf => ?_, ?_, ?_⟩
        · simp only [State.push, State.emit, State.setCoro] at hf
          rcases List.mem_cons.1 hf with rfl | hf
          · exact .inr ⟨.extRes c r, by simp, by simp [enters]⟩
          · exact .inl hf
        · intro e he
          simp at he
          subst he
          exact ⟨by simp [performer], by simp, by simp [fired]⟩
        · intro x p q e
          cases p with
          | nil => simp at e
          | cons b p => simp at e
      · exact h
    · split
      · exact Q.quiet (h.same rfl (fun _ hf => hf)) rfl (by simp) (by simp) (by simp)
      · exact h

/-! ### The invariant -/

theorem place_append (c t : Nat) (l : List (Nat × Ev V E)) (n : List (Ev V E)) :
    place c (l ++ n.map (fun e => (t, e))) = if n.any (enters c) then some t else place c l := by
  induction n using snocInd with
  | nil => simp
  | snoc n e ih =>
    unfold place at *
    rw [List.map_append, ← List.append_assoc, List.filter_append]
    by_cases h : enters c e = true
    · simp [h]
    · have h : enters c e = false := by simpa using h
      simp [h] at ih ⊢
      exact ih

theorem place_keep {c t : Nat} {l : List (Nat × Ev V E)} (n : List (Ev V E)) (h : place c l = some t) : place c (l ++ n.map (fun e => (t, e))) = some t := by
  rw [place_append, h]; split <;> rfl

/-- The thread of the last step. -/
def cur (l : Sched σ V E) : Option Nat := l.getLast?.map (·.1)

/-- What holds of an event on thread `t` after `pre`. -/
structure Fact (P : Prog σ V E) (l : Sched σ V E) (pre : List (Nat × Ev V E)) (t : Nat) (e : Ev V E) : Prop where
  who : ∀ c, performer e = some c → place c pre = some t
  woken : ∀ a d r, e = .gotWoken a d r → ∃ r', (t, .finished d r') ∈ pre
  start : ∀ c, e = .started c → ∃ p', pre = p' ++ [(t, .spawned c .eager)] ∨ ∃ a, pre = p' ++ [(t, .awaitReg a c)]
  ext : ∀ a r, e = .extRes a r → place a pre = some t ∨ ∃ l1 l2, l = l1 ++ (t, .fire a r) :: l2 ∧ thist P l1 = pre

structure TInv (P : Prog σ V E) (l : Sched σ V E) : Prop where
  st : (l.foldl (tstep P) (init, [])).1 = exec P (opsOf l)
  log : (thist P l).map (·.2) = (exec P (opsOf l)).log
  ent : ∀ c, .body c ∈ (exec P (opsOf l)).stack → place c (thist P l) = cur l
  fin : ∀ c, .final c ∈ (exec P (opsOf l)).stack → ∃ t r, cur l = some t ∧ (t, .finished c r) ∈ thist P l
  evs : ∀ pre t e post, thist P l = pre ++ (t, e) :: post → Fact P l pre t e

theorem exec_opsOf_snoc (P : Prog σ V E) (l : Sched σ V E) (t : Nat) (op : Op σ V E) : exec P (opsOf (l ++ [(t, op)])) = step P (exec P (opsOf l)) op := by
  simp [opsOf, exec]

theorem thist_snoc (P : Prog σ V E) (l : Sched σ V E) (t : Nat) (op : Op σ V E) (h : (l.foldl (tstep P) (init, [])).1 = exec P (opsOf l)) (n : List (Ev V E))
    (hn : (step P (exec P (opsOf l)) op).log = (exec P (opsOf l)).log ++ n) : thist P (l ++ [(t, op)]) = thist P l ++ n.map (fun e => (t, e)) := by
  unfold thist
  rw [List.foldl_append]
  simp only [List.foldl_cons, List.foldl_nil]
  generalize List.foldl (tstep P) (init, []) l = y at h ⊢
  unfold tstep
  rw [h, hn]
  simp

theorem fire_log (P : Prog σ V E) (s : State σ V E) (c : Nat) (r : Res V E) (n : List (Ev V E)) (h : (step P s (.fire c r)).log = s.log ++ n) : n = [] ∨ n = [.extRes c r] := by
  unfold step at h
  split at h
  · left; simpa using h.symm
  · dsimp only at h
    split at h
    · right; simpa [State.push, State.emit, State.setCoro] using h.symm
    · left; simpa using h.symm

theorem TurnByTurn.prefix {P : Prog σ V E} {l : Sched σ V E} {x : Nat × Op σ V E} (h : TurnByTurn P (l ++ [x])) : TurnByTurn P l :=
  fun a t op b e => h a t op (b ++ [x]) (by rw [e]; simp)

theorem ti (P : Prog σ V E) (l : Sched σ V E) (h : TurnByTurn P l) : TInv P l := by
  induction l using snocInd with
  | nil =>
    refine ⟨rfl, rfl, ?_, ?_, ?_⟩
    · intro c hc; simp [opsOf, exec, init] at hc
    · intro c hc; simp [opsOf, exec, init] at hc
    · intro pre t e post he; simp [thist] at he
  | snoc l x ih =>
    obtain ⟨t, op⟩ := x
    have ht := h l t op [] rfl
    have ih := ih h.prefix
    obtain ⟨n, hl, hf, ho, hs⟩ := Q.step P (exec P (opsOf l)) op
    have hh := thist_snoc P l t op ih.st n hl
    have hcur : cur (l ++ [(t, op)]) = some t := by simp [cur]
    have hold : ∀ f, f ∈ (exec P (opsOf l)).stack → cur l = some t := by
      intro f hf
      rcases ht with h0 | h0
      · rw [h0] at hf; simp at hf
      · exact h0
    have htop : ∀ f, (exec P (opsOf l)).stack.head? = some f → f ∈ (exec P (opsOf l)).stack := fun f hf => List.mem_of_mem_head? hf
    constructor
    · rw [exec_opsOf_snoc, List.foldl_append]
      simp only [List.foldl_cons, List.foldl_nil, tstep]
      rw [ih.st]
    · rw [exec_opsOf_snoc, hh, hl, List.map_append, ih.log]
      simp [Function.comp_def]
    · intro c hc
      rw [exec_opsOf_snoc] at hc
      rw [hcur, hh]
      rcases hf _ hc with h1 | ⟨e, he, hen⟩
      · exact place_keep _ (by rw [ih.ent c h1, hold _ h1])
      · rw [place_append, if_pos (List.any_eq_true.2 ⟨e, he, hen⟩)]
    · intro c hc
      rw [exec_opsOf_snoc] at hc
      rw [hcur, hh]
      rcases hf _ hc with h1 | ⟨h1, r, hr⟩
      · obtain ⟨t', r, h2, h3⟩ := ih.fin c h1
        rw [hold _ h1] at h2; cases h2
        exact ⟨t, r, rfl, by simp [h3]⟩
      · exact ⟨t, r, rfl, by simp [hr]⟩
    · intro pre t' e post he
      rw [hh] at he
      rcases List.append_eq_append_iff.1 he with ⟨as, e1, e2⟩ | ⟨bs, e1, e2⟩
      · obtain ⟨n1, n2, hn, ha, hb⟩ := List.map_eq_append_iff.1 e2
        obtain ⟨e', n3, hn2, he', hb'⟩ := List.map_eq_cons_iff.1 hb
        cases he'
        subst ha; subst hn2; subst e1
        have hok := ho e (by rw [hn]; simp)
        constructor
        · intro c hc
          have h1 := htop _ (hok.1 c hc)
          exact place_keep _ (by rw [ih.ent c h1, hold _ h1])
        · intro a d r hw
          have h1 := htop _ (hok.2.1 a d r hw)
          obtain ⟨t', r', h2, h3⟩ := ih.fin d h1
          rw [hold _ h1] at h2; cases h2
          exact ⟨r', by simp [h3]⟩
        · intro c hc
          subst hc
          obtain ⟨p', hp | ⟨a, hp⟩⟩ := hs c n1 n3 hn
          · exact ⟨thist P l ++ p'.map (fun e => (t, e)), .inl (by rw [hp]; simp)⟩
          · exact ⟨thist P l ++ p'.map (fun e => (t, e)), .inr ⟨a, by rw [hp]; simp⟩⟩
        · intro a r hx
          rcases hok.2.2 a r hx with h1 | h1
          · have h1 := htop _ h1
            exact .inl (place_keep _ (by rw [ih.ent a h1, hold _ h1]))
          · have : op = .fire a r := by cases op <;> simp [fired] at h1; rw [h1.1, h1.2]
            subst this
            rcases fire_log P _ a r n hl with h0 | h0
            · rw [h0] at hn; simp at hn
            · rw [h0] at hn
              cases n1 with
              | nil => exact .inr ⟨l, [], rfl, by simp⟩
              | cons y n1 => simp at hn
      · cases bs with
        | nil =>
          simp at e1 e2
          subst e1
          cases n with
          | nil => simp at e2
          | cons e0 n =>
            simp at e2
            obtain ⟨⟨rfl, rfl⟩, _⟩ := e2
            have hok := ho e (by simp)
            constructor
            · intro c hc
              have h1 := htop _ (hok.1 c hc)
              rw [ih.ent c h1, hold _ h1]
            · intro a d r hw
              have h1 := htop _ (hok.2.1 a d r hw)
              obtain ⟨t'', r', h2, h3⟩ := ih.fin d h1
              rw [hold _ h1] at h2; cases h2
              exact ⟨r', h3⟩
            · intro c hc
              subst hc
              obtain ⟨p', hp | ⟨a, hp⟩⟩ := hs c [] n rfl <;> simp at hp
            · intro a r hx
              rcases hok.2.2 a r hx with h1 | h1
              · have h1 := htop _ h1
                exact .inl (by rw [ih.ent a h1, hold _ h1])
              · have : op = .fire a r := by cases op <;> simp [fired] at h1; rw [h1.1, h1.2]
                subst this
                exact .inr ⟨l, [], rfl, rfl⟩
        | cons b bs =>
          simp at e2
          obtain ⟨rfl, _⟩ := e2
          have hF := ih.evs pre t' e bs e1
          refine ⟨hF.who, hF.woken, hF.start, fun a r hx => ?_⟩
          rcases hF.ext a r hx with h1 | ⟨l1, l2, h1, h2⟩
          · exact .inl h1
          · exact .inr ⟨l1, l2 ++ [(t, op)], by rw [h1]; simp, h2⟩

/-! ### The theorems -/

/-- The history with its threads is the history. -/
theorem C85_same_history (P : Prog σ V E) (l : Sched σ V E) (h : TurnByTurn P l) : (thist P l).map (·.2) = (exec P (opsOf l)).log := (ti P l h).log

/-- **A coroutine stays on its thread between its suspensions**: whatever it does itself, it does on the thread on which it was last made to execute – where its
body began, or where the last `co_await` in which it was suspended completed. In particular a `co_await` that does not suspend does not change the thread. -/
theorem C85_stays (P : Prog σ V E) (l : Sched σ V E) (h : TurnByTurn P l) (pre : List (Nat × Ev V E)) (t : Nat) (e : Ev V E) (post : List (Nat × Ev V E))
    (he : thist P l = pre ++ (t, e) :: post) (c : Nat) (hc : performer e = some c) : place c pre = some t := ((ti P l h).evs pre t e post he).who c hc

/-- **A body begins on the thread of its caller** – for a Task directly after the call, on the same thread; for a LazyTask on the thread of the coroutine that
awaits it, directly after the `co_await`. -/
theorem C85_starts (P : Prog σ V E) (l : Sched σ V E) (h : TurnByTurn P l) (pre : List (Nat × Ev V E)) (t c : Nat) (post : List (Nat × Ev V E))
    (he : thist P l = pre ++ (t, .started c) :: post) :
    ∃ p, pre = p ++ [(t, .spawned c .eager)] ∨ ∃ a, pre = p ++ [(t, .awaitReg a c)] ∧ place a p = some t := by
  obtain ⟨p, hp | ⟨a, hp⟩⟩ := ((ti P l h).evs pre t _ post he).start c rfl
  · exact ⟨p, .inl hp⟩
  · exact ⟨p, .inr ⟨a, hp, C85_stays P l h p t (.awaitReg a c) ((t, .started c) :: post) (by rw [he, hp]; simp) a rfl⟩⟩

/-- **Who awaited a Task continues on the thread on which the Task has finished**, not on its own. -/
theorem C85_woken (P : Prog σ V E) (l : Sched σ V E) (h : TurnByTurn P l) (pre : List (Nat × Ev V E)) (t a d : Nat) (r : Res V E) (post : List (Nat × Ev V E))
    (he : thist P l = pre ++ (t, .gotWoken a d r) :: post) :
    ∃ p r' q, pre = p ++ (t, .finished d r') :: q ∧ place d p = some t := by
  obtain ⟨r', hm⟩ := ((ti P l h).evs pre t _ post he).woken a d r rfl
  obtain ⟨p, q, hp⟩ := List.append_of_mem hm
  exact ⟨p, r', q, hp, C85_stays P l h p t (.finished d r') (q ++ (t, .gotWoken a d r) :: post) (by rw [he, hp]; simp) d rfl⟩

/-- **What completes from outside brings its thread along**: if the `co_await` of something external completes on thread `t`, then either it did not suspend and
`t` is the thread on which the coroutine executes anyway, or it is `t` that has completed it. -/
theorem C85_outside (P : Prog σ V E) (l : Sched σ V E) (h : TurnByTurn P l) (pre : List (Nat × Ev V E)) (t a : Nat) (r : Res V E) (post : List (Nat × Ev V E))
    (he : thist P l = pre ++ (t, .extRes a r) :: post) :
    place a pre = some t ∨ ∃ l1 l2, l = l1 ++ (t, .fire a r) :: l2 ∧ thist P l1 = pre := ((ti P l h).evs pre t _ post he).ext a r rfl

theorem place_some {c t : Nat} {l : List (Nat × Ev V E)} (h : place c l = some t) : ∃ p e q, l = p ++ (t, e) :: q ∧ enters c e = true := by
  unfold place at h
  obtain ⟨x, hx, rfl⟩ := Option.map_eq_some_iff.1 h
  have := List.mem_of_getLast? hx
  obtain ⟨h1, h2⟩ := List.mem_filter.1 this
  obtain ⟨p, q, rfl⟩ := List.append_of_mem h1
  exact ⟨p, x.2, q, rfl, h2⟩

theorem waits_reg {a d : Nat} {l : List (Ev V E)} : life a l = .waitTask d → .awaitReg a d ∈ l := by
  induction l using snocInd with
  | nil => intro h; simp [life] at h
  | snoc l e ih =>
    intro h
    rw [life_snoc] at h
    cases e <;> simp only [lifeStep] at h <;> (try split at h) <;> first
      | exact List.mem_append_left _ (ih h)
      | (cases h; simp_all)
      | simp_all

/-- **Everybody stays at home**: let every coroutine have a home thread, the one on which it was called if it is a Task; let nobody await a coroutine that has
another home; and let whatever completes from outside complete on the thread on which the coroutine suspended (as signals, timers, replies, devices … do: C30, C40,
C48, C49, C83). Then every coroutine does everything it does on its home thread, for ever. -/
theorem C85_home (P : Prog σ V E) (l : Sched σ V E) (h : TurnByTurn P l) (home : Nat → Nat)
    (hs : ∀ t c, (t, .spawned c .eager) ∈ thist P l → home c = t)
    (hw : ∀ t a d, (t, .awaitReg a d) ∈ thist P l → home a = home d)
    (hx : ∀ pre t c r post, thist P l = pre ++ (t, .extRes c r) :: post → place c pre = some t)
    (t : Nat) (e : Ev V E) (c : Nat) (he : (t, e) ∈ thist P l) (hc : enters c e = true ∨ performer e = some c) : t = home c := by
  have key : ∀ n pre t e post c, pre.length = n → thist P l = pre ++ (t, e) :: post → enters c e = true ∨ performer e = some c → t = home c := by
    intro n
    induction n using Nat.strongRecOn with
    | ind n ih =>
      intro pre t e post c hn he hc
      have hF := (ti P l h).evs pre t e post he
      have hp : place c pre = some t → t = home c := by
        intro h1
        obtain ⟨p, e', q, h2, h3⟩ := place_some h1
        exact ih p.length (by rw [← hn, h2]; simp) p t e' (q ++ (t, e) :: post) c rfl (by rw [he, h2]; simp) (.inl h3)
      rcases hc with hc | hc
      · cases e with
        | started d =>
          simp [enters] at hc; subst hc
          obtain ⟨p, h1 | ⟨a, h1⟩⟩ := hF.start d rfl
          · exact (hs t d (by rw [he, h1]; simp)).symm
          · rw [← hw t a d (by rw [he, h1]; simp)]
            exact ih p.length (by rw [← hn, h1]; simp) p t (.awaitReg a d) ((t, .started d) :: post) a rfl (by rw [he, h1]; simp) (.inr rfl)
        | gotWoken a d r =>
          simp [enters] at hc; subst hc
          obtain ⟨r', h1⟩ := hF.woken a d r rfl
          obtain ⟨p, q, h2⟩ := List.append_of_mem h1
          have h3 : t = home d := ih p.length (by rw [← hn, h2]; simp) p t (.finished d r') (q ++ (t, .gotWoken a d r) :: post) d rfl (by rw [he, h2]; simp) (.inr rfl)
          have h4 := (ti P l h).log
          rw [he, List.map_append, List.map_cons] at h4
          have h5 := waits_reg ((exec_linv P (opsOf l)).ok _ _ _ h4.symm).1
          obtain ⟨⟨t', e'⟩, h6, h7⟩ := List.mem_map.1 h5
          simp at h7; subst h7
          rw [h3]
          exact (hw t' a d (by rw [he]; simp [h6])).symm
        | extRes a r =>
          simp [enters] at hc; subst hc
          exact hp (hx pre t a r post he)
        | _ => simp [enters] at hc
      · exact hp (hF.who c hc)
  obtain ⟨p, q, hp⟩ := List.append_of_mem he
  exact key p.length p t e q c rfl hp hc

/-! ### Examples -/

theorem turnByTurn_of {P : Prog σ V E} {l : Sched σ V E}
    (h : ∀ i < l.length, (exec P (opsOf (l.take i))).stack = [] ∨ (l.take i).getLast?.map (·.1) = (l[i]?).map (·.1)) : TurnByTurn P l := by
  intro a t op b e
  have := h a.length (by rw [e]; simp)
  subst e
  simpa using this

/-- `n` steps of thread `t`. -/
def on (t : Nat) (l : List (Op Nat Nat Nat)) : Sched Nat Nat Nat := l.map (fun op => (t, op))

/-- Thread 2 calls coroutine 0, which waits for something external; coroutine 1 on thread 1 awaits it; what 0 waits for completes on thread 2; 0 finishes. -/
def across : Sched Nat Nat Nat := on 2 ([.main (.call .eager 0 0 [])] ++ go 3) ++ on 1 ([.main (.call .eager 10 0 [])] ++ go 3) ++ on 2 ([.fire 0 (.val 5)] ++ go 12)

theorem across_turns : TurnByTurn demo across := turnByTurn_of (by decide)

/-- Found: coroutine 1 was called on thread 1, and awaits a Task whose coroutine never leaves thread 2 (what that one awaits completes where it suspended): when the
`co_await` completes coroutine 1 is on thread 2, and stays there until it finishes – `TaskFinalSuspend::await_suspend` (`qcoro/impl/taskfinalsuspend.h:24-34`) resumes
the awaiters there and then. -/
theorem C85_found_awaiter_moves : TurnByTurn demo across ∧ (exec demo (opsOf across)).ub = none ∧ (exec demo (opsOf across)).stack = [] ∧
    (thist demo across).filter (fun p => enters 0 p.2 || decide (performer p.2 = some 0)) =
      [(2, .started 0), (2, .extSusp 0), (2, .extRes 0 (.val 5)), (2, .finished 0 (.val 5))] ∧
    (thist demo across).filter (fun p => enters 1 p.2 || decide (performer p.2 = some 1)) =
      [(1, .started 1), (1, .awaitReg 1 0), (2, .gotWoken 1 0 (.val 5)), (2, .finished 1 (.val 5))] := by
  refine ⟨across_turns, ?_, ?_, ?_, ?_⟩ <;> decide

/-- The same two on one thread, another pair on another: everybody at home. -/
def neighbours : Sched Nat Nat Nat :=
  on 2 ([.main (.call .eager 0 0 [])] ++ go 3) ++ on 1 ([.main (.call .eager 0 0 [])] ++ go 3) ++ on 2 ([.main (.call .lazy 10 0 [])] ++ go 3) ++ on 2 ([.main (.call .eager 10 2 [])] ++ go 3) ++
  on 1 ([.main (.call .eager 10 1 [])] ++ go 3) ++ on 2 ([.fire 0 (.val 5)] ++ go 12) ++ on 1 ([.fire 1 (.exc 5)] ++ go 12)

example : TurnByTurn demo neighbours ∧ (exec demo (opsOf neighbours)).ub = none ∧
    let home := fun c => if c = 1 ∨ c = 4 then 1 else 2
    (∀ p ∈ thist demo neighbours, (match p.2 with | .spawned c .eager => home c == p.1 | .awaitReg a d => home a == home d | _ => true) = true) ∧
    (∀ i < (thist demo neighbours).length, (match (thist demo neighbours)[i]? with | some (t, .extRes c _) => place c ((thist demo neighbours).take i) == some t | _ => true) = true) ∧
    (1, .finished 4 (.exc 5)) ∈ thist demo neighbours ∧ (2, .finished 3 (.val 5)) ∈ thist demo neighbours ∧ (2, .started 2) ∈ thist demo neighbours := by
  refine ⟨turnByTurn_of (by decide), by decide, by decide, by decide, by decide, by decide, by decide⟩

end QCoro.Task
