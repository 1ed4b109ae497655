import Verif.Task.ToldDemo
/-! C66: what a statement of a body that creates or asks a Task object is answered. -/
namespace QCoro.Task
variable {σ V E : Type}

/-- `x` is a live Task object of the user, of kind `k`, that refers to `h`. -/
def Fresh (s s' : State σ V E) (o : Nat) (k : Kind) (h : Option Nat) : Prop :=
  s.no ≤ o ∧ s'.obj o = { alive := true, owner := .user, kind := k, handle := h }

theorem spawn_obj (P : Prog σ V E) (s : State σ V E) (k code ps v own) :
    (spawn P s k code ps v own).obj s.no = { alive := true, owner := own, kind := k, handle := some s.nc } := by
  unfold spawn; cases k <;> simp [State.push, State.emit, State.setCoro, State.setObj]

theorem moveArgs_no (as : List Nat) : ∀ s : State σ V E, (moveArgs s as).1.ub = none → (moveArgs s as).1.no = s.no + as.length := by
  induction as with
  | nil => intro s _; rfl
  | cons a as ih =>
    intro s hu
    simp only [moveArgs] at hu ⊢
    split at hu
    · rename_i hx; rw [if_pos hx]; rw [ih _ hu]; simp [moveObj]; omega
    · simp [State.fail] at hu

theorem moveArgs_old (as : List Nat) : ∀ s : State σ V E, ∀ o, o < s.no → o ∉ as → (moveArgs s as).1.obj o = s.obj o := by
  induction as with
  | nil => intro s o _ _; rfl
  | cons a as ih =>
    intro s o ho hn
    simp only [moveArgs]
    simp at hn
    split
    · rw [ih _ o (by simp [moveObj]; omega) hn.2]
      simp [moveObj, State.setObj, hn.1]; omega
    · rfl

theorem moveArgs_arg (as : List Nat) : ∀ s : State σ V E, (moveArgs s as).1.ub = none → (∀ a ∈ as, a < s.no) → as.Nodup → ∀ i (h : i < as.length),
    (moveArgs s as).1.obj (s.no + i) = { alive := true, owner := .user, kind := (s.obj as[i]).kind, handle := (s.obj as[i]).handle } ∧
    ((moveArgs s as).1.obj as[i]).handle = none := by
  induction as with
  | nil => intro s _ _ _ i h; simp at h
  | cons a as ih =>
    intro s hu hlt hnd i h
    simp only [moveArgs] at hu ⊢
    split at hu
    · rename_i hx
      rw [if_pos hx]
      have ha : a < s.no := hlt a (by simp)
      have hnd' := List.nodup_cons.1 hnd
      cases i with
      | zero =>
        have e0 : s.no ∉ as := fun hm => by have := hlt s.no (by simp [hm]); omega
        refine ⟨?_, ?_⟩
        · rw [Nat.add_zero, moveArgs_old as _ _ (by simp [moveObj]) e0]; simp [moveObj, State.setObj]
        · show (((moveArgs (moveObj s a .user) as).1).obj a).handle = none
          rw [moveArgs_old as _ a (by simp [moveObj]; omega) hnd'.1]
          have : a ≠ s.no := by omega
          simp [moveObj, State.setObj, this]
      | succ i =>
        have hi : i < as.length := by simpa using h
        have := ih (moveObj s a .user) hu (fun b hb => by have := hlt b (by simp [hb]); simp [moveObj]; omega) hnd'.2 i hi
        have hne : as[i] ≠ a := fun he => hnd'.1 (he ▸ List.getElem_mem hi)
        have hlt' := hlt as[i] (by simp)
        have e1 : ((moveObj s a .user).obj as[i]) = s.obj as[i] := by
          simp only [moveObj, State.setObj]; rw [if_neg (by omega), if_neg hne]
        rw [e1] at this
        have e2 : (moveObj s a .user).no + i = s.no + (i + 1) := by simp [moveObj]; omega
        rw [e2] at this
        simpa using this
    · simp [State.fail] at hu

/-- The answer a statement of a body gets that creates a Task object or asks one. -/
def Answer (s s' : State σ V E) : UAct σ V E → Resp V E → Prop
  -- a call gives a new Task object that refers to the new coroutine
  | .call k _ _ _, i => ∃ o, i = .obj o ∧ Fresh s s' o k (some s.nc)
  -- a move construction gives a new Task object that refers to what the source referred to; the source is empty
  | .moveNew src, i => ∃ o, i = .obj o ∧ Fresh s s' o (s.obj src).kind (s.obj src).handle ∧ (s'.obj src).handle = none
  -- a default construction gives a new empty Task object
  | .mkNull k, i => ∃ o, i = .obj o ∧ Fresh s s' o k none
  -- isReady tells whether the Task is empty or its coroutine has completed
  | .isReady o, i => i = .flag (match (s.obj o).handle with | none => true | some d => decide (life d s.log = .done))
  -- then gives a new Task object that refers to the new continuation
  | .thenL o cfg, i => ∃ o', i = .obj o' ∧ Fresh s s' o' (thenKind cfg (s.obj o).kind) (some s.nc)
  | .thenR o cfg, i => ∃ o', i = .obj o' ∧ Fresh s s' o' (thenKind cfg (s.obj o).kind) (some s.nc) ∧ (s'.obj o).handle = none
  | _, _ => True

/-- C66. What a body is told about the Task objects it makes and asks. -/
theorem C66_answers {P : Prog σ V E} {ops op c a} (hp : Performs P (exec P ops) op (some c) a) (hu : (exec P (ops ++ [op])).ub = none) :
    Answer (exec P ops) (exec P (ops ++ [op])) a ((exec P (ops ++ [op])).coro c).inp := by
  have hu0 := hp.1
  have hI := exec_inv P ops hu0
  have hL := exec_linv P ops
  rw [exec_snoc] at hu ⊢
  generalize exec P ops = s at *
  obtain ⟨s1, hs, hl, ho, hnc, hno, hcoro, st, hst⟩ : ∃ s1 : State σ V E, step P s op = doUser P s1 (some c) a ∧ s1.log = s.log ∧ s1.obj = s.obj ∧
      s1.nc = s.nc ∧ s1.no = s.no ∧ (∀ d, (s1.coro d).status = (s.coro d).status ∧ (s1.coro d).freed = (s.coro d).freed) ∧ ∃ st, s.stack = .body c :: st := by
    obtain ⟨hp1, ⟨h, _⟩ | ⟨c', st, code, h, rfl, hst, hf, hc, ha⟩⟩ := hp
    · cases h
    · cases h
      refine ⟨actState P s c code, ?_, rfl, rfl, rfl, rfl, ?_, st, hst⟩
      · rw [step_run_body (P := P) hp1 hst hf hc, ha]; rfl
      · intro d; by_cases hd : d = c
        · subst hd; simp [actState, State.setCoro]
        · simp [actState, State.setCoro, hd]
  have hrun := (hI.i2.i1.core.bodyR c).1 (by rw [hst]; simp [bodies])
  have hc : c < s.nc := Nat.lt_of_not_le fun h => by rw [hI.i2.i1.core.corB c h] at hrun; simp at hrun
  rw [hs] at hu ⊢
  have rep : ∀ (x : State σ V E) i, ((x.reply (some c) i).coro c).inp = i := fun x i => by simp [State.reply, State.setCoro]
  have olt : ∀ o, s1.usable false o = true → o < s.no := by
    intro o h
    apply Nat.lt_of_not_le
    intro h1
    have h2 := hI.i2.i1.core.objB o h1
    rw [State.usable, ho, h2] at h
    simp at h
  cases a with
  | call k f v args =>
    simp only [doUser] at hu ⊢
    split at hu
    · rename_i hx; simp [hu] at hx
    · rename_i hx
      rw [if_neg hx]
      have h1 := moveArgs_no args s1 (by simpa using hx)
      have h2 := (moveArgs_log args s1).2
      refine ⟨(moveArgs s1 args).1.no, ?_, by omega, ?_⟩
      · rw [(keep_spawn P _ k (.user f) (moveArgs s1 args).2 v .user (by show c < (moveArgs s1 args).1.nc; omega)).inp]
        simp [State.setCoro]
      · refine (spawn_obj P _ k (.user f) _ v .user).trans ?_
        show _ = Obj.mk _ _ _ (some s.nc)
        rw [← hnc, ← h2]; rfl
  | moveNew src =>
    simp only [doUser] at hu ⊢
    split at hu
    · rename_i hx; rw [if_pos hx]
      have := olt src hx
      refine ⟨s1.no, rep _ _, ⟨by omega, ?_⟩, ?_⟩
      · simp [moveObj, State.setObj, State.reply, State.setCoro, ho]
      · have : src ≠ s1.no := by omega
        simp [moveObj, State.setObj, State.reply, State.setCoro, ho, this]
    · simp [State.fail] at hu
  | mkNull k => exact ⟨s1.no, rep _ _, by omega, by simp [doUser, State.reply, State.setCoro, State.setObj]⟩
  | isReady o =>
    simp only [doUser] at hu ⊢
    split at hu
    · rename_i hx; rw [if_pos hx]
      rw [ho] at hu ⊢
      obtain ⟨h, hh⟩ : ∃ h, (s.obj o).handle = h := ⟨_, rfl⟩
      simp only [Answer, hh] at hu ⊢
      cases h with
      | none => exact rep _ _
      | some d =>
        dsimp only at hu ⊢
        split at hu
        · simp [State.fail] at hu
        · rename_i hf; rw [if_neg hf, hL.life, ← (hcoro d).1]; exact rep _ _
    · simp [State.fail] at hu
  | thenL o cfg =>
    simp only [doUser] at hu ⊢
    split at hu
    · rename_i hx; rw [if_pos hx]
      refine ⟨s1.no, ?_, by omega, ?_⟩
      · rw [(keep_spawn P _ _ _ _ _ _ (by show c < s1.nc; omega)).inp]; exact rep _ _
      · refine (spawn_obj P _ _ _ _ _ .user).trans ?_
        rw [← hnc]; simp [State.reply, State.setCoro, State.emit, ho]
    · simp [State.fail] at hu
  | thenR o cfg =>
    simp only [doUser] at hu ⊢
    split at hu
    · rename_i hx; rw [if_pos hx]
      have := olt o hx
      refine ⟨s1.no + 1, ?_, ⟨by omega, ?_⟩, ?_⟩
      · rw [(keep_spawn P _ _ _ _ _ _ (by show c < s1.nc; omega)).inp]; exact rep _ _
      · refine (spawn_obj P _ _ _ _ _ .user).trans ?_
        rw [← hnc]; simp [State.reply, State.setCoro, State.emit, moveObj, State.setObj, ho]
      · obtain ⟨_, _, _, _, _, a6, _⟩ := spawn_new P (((moveObj (s1.emit (.thenMade s1.nc (s1.obj o).handle (cfg.plain.info true))) o (.param s1.nc))).reply (some c) (.obj (s1.no + 1)))
          (thenKind cfg (s1.obj o).kind) (.thenC s1.no cfg.plain .init) [s1.no] P.dflt .user
        have h1 : o ≠ s1.no := by omega
        refine (congrArg Obj.handle (a6 o ?_)).trans ?_
        · show o ≠ s1.no + 1; omega
        · simp [moveObj, State.reply, State.setCoro, State.setObj, State.emit, h1]
    · simp [State.fail] at hu
  | _ => trivial

/-- C66. The Task arguments of a call become its parameters: parameter `i` is a new Task object that refers to what argument `i` referred to,
and the argument is empty afterwards.  (Whatever object is passed twice is empty the second time.) -/
theorem C66_arguments {P : Prog σ V E} {ops op who k f v args} (hp : Performs P (exec P ops) op who (.call k f v args))
    (hu : (exec P (ops ++ [op])).ub = none) (hnd : args.Nodup)
    (hex : ∀ a ∈ args, ((exec P ops).obj a).alive = true) (i : Nat) (hi : i < args.length) :
    (List.range' (exec P ops).no args.length)[i]? = some ((exec P ops).no + i) ∧
    (exec P (ops ++ [op])).obj ((exec P ops).no + i) =
      { alive := true, owner := .user, kind := ((exec P ops).obj args[i]).kind, handle := ((exec P ops).obj args[i]).handle } ∧
    ((exec P (ops ++ [op])).obj args[i]).handle = none := by
  have hu0 := hp.1
  have hI := exec_inv P ops hu0
  rw [exec_snoc] at hu ⊢
  generalize exec P ops = s at *
  obtain ⟨s1, hs, hl, ho, hnc, hno, hstk, hw, _⟩ := hp.step
  refine ⟨by simp [hi], ?_⟩
  rw [hs] at hu ⊢
  simp only [doUser] at hu ⊢
  split at hu
  · rename_i hx; simp [hu] at hx
  · rename_i hx
    rw [if_neg hx]
    have hu1 : (moveArgs s1 args).1.ub = none := by simpa using hx
    have hlt : ∀ a ∈ args, a < s1.no := by
      intro a ha
      rw [hno]
      apply Nat.lt_of_not_le
      intro h1
      have := hex a ha
      rw [hI.i2.i1.core.objB a h1] at this
      simp at this
    have h1 := moveArgs_arg args s1 hu1 hlt hnd i hi
    have h2 := moveArgs_no args s1 hu1
    rw [hno, ho] at h1
    have key : ∀ b : State σ V E, b.obj = (moveArgs s1 args).1.obj → b.no = (moveArgs s1 args).1.no → ∀ o, o < s1.no + args.length →
        (spawn P b k (.user f) (moveArgs s1 args).2 v .user).obj o = (moveArgs s1 args).1.obj o := by
      intro b hb hbn o hlo
      obtain ⟨_, _, _, _, _, a6, _⟩ := spawn_new P b k (.user f) (moveArgs s1 args).2 v .user
      rw [a6 o (by omega), hb]
    have hlt' := hlt args[i] (List.getElem_mem hi)
    cases who with
    | none => rw [key _ rfl rfl _ (by omega), key _ rfl rfl _ (by omega)]; exact h1
    | some p =>
      have k2 := key ((moveArgs s1 args).1.setCoro p { (moveArgs s1 args).1.coro p with inp := .obj (moveArgs s1 args).1.no }) rfl rfl
      exact ⟨(k2 _ (by omega)).trans h1.1, (congrArg Obj.handle (k2 _ (by omega))).trans h1.2⟩

/-- A body that calls a LazyTask, moves it, asks whether it is ready and returns 1 if so. -/
def chat : Prog Nat Nat Nat where
  next
    | 0, _ => (1, .call .lazy 9 3 [])
    | 1, .obj o => (2, .moveNew o)
    | 2, .obj o => (3, .isReady o)
    | 3, .flag b => (4, .ret b.toNat)
    | _, _ => (4, .ret 8)
  isStd := fun _ => true
  mv := id
  dflt := 0

def chatPre : List (Op Nat Nat Nat) := [.main (.call .eager 0 0 [])]
-- the three statements are performed and answered with the new objects 1 and 2, and false
example : Performs chat (exec chat chatPre) .run (some 0) (.call .lazy 9 3 []) := ⟨by decide, .inr ⟨0, [], .user 0, rfl, rfl, by decide, by decide, rfl, rfl⟩⟩
example : Performs chat (exec chat (chatPre ++ go 1)) .run (some 0) (.moveNew 1) := ⟨by decide, .inr ⟨0, [], .user 1, rfl, rfl, by decide, by decide, rfl, rfl⟩⟩
example : Performs chat (exec chat (chatPre ++ go 2)) .run (some 0) (.isReady 2) := ⟨by decide, .inr ⟨0, [], .user 2, rfl, rfl, by decide, by decide, rfl, rfl⟩⟩
example : seenOf 0 (exec chat (chatPre ++ go 8)) = [.ended (.val 0)] ∧ (exec chat (chatPre ++ go 8)).ub = none := by decide

-- concrete cases: the main program moves task 0 (on something outside) into a call of body 10, coroutine 1
example : (exec demo (thenPre ++ [.main (.call .eager 10 1 [0])])).ub = none ∧ ((exec demo thenPre).obj 0).handle = some 0 ∧
    ((exec demo (thenPre ++ [.main (.call .eager 10 1 [0])])).obj 1).handle = some 0 ∧
    ((exec demo (thenPre ++ [.main (.call .eager 10 1 [0])])).obj 0).handle = none := by decide
-- and coroutine 1 then awaits its parameter, object 1, and gets what task 0 produces
example : seenOf 1 (exec demo (thenPre ++ [.main (.call .eager 10 1 [0])] ++ go 3 ++ [.fire 0 (.val 5)] ++ go 12)) = [.heard (.val 5), .ended (.val 5)] := by decide
end QCoro.Task
