import Verif.Task.Progress
/-! # C84: how deep the native stack gets -/
set_option linter.unusedSimpArgs false
namespace QCoro.Task
variable {σ V E : Type}

/-- The coroutine that a native activation executes: its body, or the resumption of those who awaited it. Specification vocabulary, no counterpart in /repo. -/
def Frame.runs : Frame → Option Nat
  | .body c => some c
  | .final c => some c
  | _ => none

/-- The coroutines that are in execution, the innermost first. Specification vocabulary, no counterpart in /repo. -/
def active (st : List Frame) : List Nat := st.filterMap Frame.runs

/-- The `waitFor` call of a native activation. Specification vocabulary, no counterpart in /repo. -/
def Frame.waitsIn : Frame → Option Nat
  | .waitA w _ => some w
  | .waitB w => some w
  | .loop w => some w
  | _ => none

theorem mem_active {st : List Frame} {c : Nat} : c ∈ active st ↔ Frame.body c ∈ st ∨ Frame.final c ∈ st := by
  unfold active
  rw [List.mem_filterMap]
  constructor
  · rintro ⟨f, hf, h⟩
    cases f <;> simp [Frame.runs] at h <;> subst h
    · exact .inl hf
    · exact .inr hf
  · rintro (h | h)
    · exact ⟨_, h, rfl⟩
    · exact ⟨_, h, rfl⟩

theorem mem_bodies' {st : List Frame} {c : Nat} : c ∈ bodies st ↔ Frame.body c ∈ st := by
  unfold bodies
  rw [List.mem_filterMap]
  constructor
  · rintro ⟨f, hf, h⟩; cases f <;> simp at h; subst h; exact hf
  · intro h; exact ⟨_, h, rfl⟩

theorem mem_finals' {st : List Frame} {c : Nat} : c ∈ finals st ↔ Frame.final c ∈ st := by
  unfold finals
  rw [List.mem_filterMap]
  constructor
  · rintro ⟨f, hf, h⟩; cases f <;> simp at h; subst h; exact hf
  · intro h; exact ⟨_, h, rfl⟩

theorem active_nodup {st : List Frame} (h1 : (bodies st).Nodup) (h2 : (finals st).Nodup) (h3 : ∀ c, c ∈ bodies st → c ∉ finals st) : (active st).Nodup := by
  induction st with
  | nil => exact List.nodup_nil
  | cons f st ih =>
    cases f with
    | body c =>
      have e1 : bodies (.body c :: st) = c :: bodies st := rfl
      have e2 : finals (.body c :: st) = finals st := rfl
      have e3 : active (.body c :: st) = c :: active st := rfl
      rw [e1] at h1 h3; rw [e2] at h2 h3; rw [e3]
      obtain ⟨hn, h1⟩ := List.nodup_cons.1 h1
      refine List.nodup_cons.2 ⟨?_, ih h1 h2 (fun x hx => h3 x (by simp [hx]))⟩
      rw [mem_active, ← mem_bodies', ← mem_finals']
      rintro (h | h)
      · exact hn h
      · exact h3 c (by simp) h
    | final c =>
      have e1 : bodies (.final c :: st) = bodies st := rfl
      have e2 : finals (.final c :: st) = c :: finals st := rfl
      have e3 : active (.final c :: st) = c :: active st := rfl
      rw [e1] at h1 h3; rw [e2] at h2 h3; rw [e3]
      obtain ⟨hn, h2⟩ := List.nodup_cons.1 h2
      refine List.nodup_cons.2 ⟨?_, ih h1 h2 (fun x hx hm => h3 x hx (by simp [hm]))⟩
      rw [mem_active, ← mem_bodies', ← mem_finals']
      rintro (h | h)
      · exact h3 c h (by simp)
      · exact hn h
    | _ => exact ih h1 h2 h3

/-- **No coroutine is entered while it is in execution**: whatever the program and the schedule, no coroutine is twice on the native stack (its
body, or the resumption of its awaiters). -/
theorem C84_no_reentry (P : Prog σ V E) (ops) (hu : (exec P ops).ub = none) : (active (exec P ops).stack).Nodup := by
  have hi := (exec_inv P ops hu).i2.i1.core
  exact active_nodup hi.bodyN hi.finN (fun c hb hf => by
    have h1 := (hi.bodyR c).1 hb
    have h2 := ((hi.finR c).1 hf).1
    rw [h1] at h2; cases h2)

/-- … and all that are exist. -/
theorem C84_only_existing (P : Prog σ V E) (ops) (hu : (exec P ops).ub = none) (c : Nat) (h : c ∈ active (exec P ops).stack) :
    (∃ k, .spawned c k ∈ (exec P ops).log) ∧ .destroyed c ∉ (exec P ops).log := by
  have hl := exec_linv P ops
  have hi := (exec_inv P ops hu).i2.i1.core
  refine ⟨?_, ?_⟩
  · refine ⟨((exec P ops).coro c).kind, (hl.kd c _).2 ⟨?_, rfl⟩⟩
    apply Classical.byContradiction
    intro hn
    have h0 := hi.corB c (by omega)
    rcases mem_active.1 h with h | h
    · have := (hi.bodyR c).1 (mem_bodies'.2 h); rw [h0] at this; cases this
    · have := ((hi.finR c).1 (mem_finals'.2 h)).1; rw [h0] at this; cases this
  · intro hd
    have := C01_no_dangling_frame P ops hu c hd
    rcases mem_active.1 h with h | h
    · exact this.1 h
    · exact this.2.1 h

theorem nodup_length {α : Type} [DecidableEq α] : ∀ (a b : List α), a.Nodup → (∀ x ∈ a, x ∈ b) → a.length ≤ b.length
  | [], b, _, _ => Nat.zero_le _
  | x :: a, b, hn, hs => by
    obtain ⟨h1, h2⟩ := List.nodup_cons.1 hn
    have hx := hs x (by simp)
    have := nodup_length a (b.erase x) h2 (fun y hy => by
      have hne : y ≠ x := fun h => h1 (h ▸ hy)
      exact (List.mem_erase_of_ne hne).2 (hs y (by simp [hy])))
    rw [List.length_erase_of_mem hx] at this
    have : 0 < b.length := List.length_pos_of_mem hx
    simp; omega

/-- **The native stack is bounded by what is alive**: there are never more coroutines nested in execution than coroutines that exist – however many
times they have awaited, been resumed, or created and dropped others. -/
theorem C84_depth (P : Prog σ V E) (ops) (hu : (exec P ops).ub = none) (existing : List Nat)
    (h : ∀ c k, .spawned c k ∈ (exec P ops).log → .destroyed c ∉ (exec P ops).log → c ∈ existing) :
    (active (exec P ops).stack).length ≤ existing.length :=
  nodup_length _ _ (C84_no_reentry P ops hu) (fun c hc => by
    obtain ⟨⟨k, h1⟩, h2⟩ := C84_only_existing P ops hu c hc
    exact h c k h1 h2)

/-- Every call of `waitFor` has one activation, later calls are above earlier ones. -/
theorem C84_waitFor (P : Prog σ V E) (ops) (hu : (exec P ops).ub = none) :
    ((exec P ops).stack.filterMap Frame.waitsIn).Pairwise (· > ·) := by
  have := (exec_inv P ops hu).i2.w.sorted
  have e : ∀ st : List Frame, st.filterMap Frame.waitsIn = waits st := by
    intro st
    unfold waits
    congr 1
  rw [e]; exact this

/-! ### A long chain of Tasks -/

/-- Where a body of the chain is. The user's program, no counterpart in /repo. -/
inductive Link1 | fresh | waiting
deriving DecidableEq, Repr

/-- `Task<> first() { co_await something; }` and `Task<> next(Task<> previous) { co_await previous; }`. The user's program, no counterpart in /repo. -/
def chainNext : Link1 → Resp Unit Unit → Link1 × UAct Link1 Unit Unit
  | .fresh, .start [] _ => (.waiting, .awaitExt none)
  | .fresh, .start (p :: _) _ => (.waiting, .await p)
  | _, _ => (.waiting, .ret ())

/-- The user's program, no counterpart in /repo. -/
def chainP : Prog Link1 Unit Unit := { next := chainNext, isStd := fun _ => true, mv := fun _ => (), dflt := () }

/-- `auto task = first();` and `n` times `task = next(std::move(task));`, from the event loop. -/
def build : Nat → List (Op Link1 Unit Unit)
  | 0 => [.main (.call .eager .fresh () []), .run]
  | n + 1 => build n ++ [.main (.call .eager .fresh () [2 * n]), .run]

/-- What `something` completes, and the bodies run. -/
def complete : Nat → List (Op Link1 Unit Unit)
  | 0 => [.fire 0 (.val ()), .run]
  | n + 1 => complete n ++ [.run, .run]

/-- Everything returns. -/
def unwind (n : Nat) : List (Op Link1 Unit Unit) := List.replicate n .run

/-- The state of the chain of `n + 1` coroutines when all wait. -/
structure Built (n : Nat) (s : State Link1 Unit Unit) : Prop where
  ub : s.ub = none
  nc : s.nc = n + 1
  no : s.no = 2 * n + 1
  stack : s.stack = []
  st0 : (s.coro 0).status = .waitExt
  st : ∀ k, 0 < k → k ≤ n → (s.coro k).status = .waitTask (k - 1)
  aw : ∀ k, k < n → (s.coro k).awaiters = [k + 1]
  awn : (s.coro n).awaiters = []
  fr : ∀ k, (s.coro k).freed = false
  code : ∀ k, k ≤ n → (s.coro k).code = some (.user .waiting)
  rc : ∀ k, k ≤ n → (s.coro k).rc = 2
  ow0 : (s.coro 0).owned = []
  ow : ∀ k, 0 < k → k ≤ n → (s.coro k).owned = [2 * k - 1]
  top : s.obj (2 * n) = { alive := true, owner := .user, kind := .eager, handle := some n }
  par : ∀ k, 0 < k → k ≤ n → s.obj (2 * k - 1) = { alive := true, owner := .user, kind := .eager, handle := some (k - 1) }

theorem built (n : Nat) : Built n (exec chainP (build n)) := by
  induction n with
  | zero =>
    have e : ∀ k, (exec chainP (build 0)).coro k = if k = 0 then (exec chainP (build 0)).coro 0 else {} := by
      intro k
      by_cases hk : k = 0
      · subst hk; rfl
      · rw [if_neg hk]
        simp [exec, build, step, State.mayAct, init, doUser, moveArgs, spawn, State.setCoro, State.setObj, State.emit, State.push, run, codeNext, chainP, chainNext, doAct, State.pop, hk]
    constructor
    · rfl
    · rfl
    · rfl
    · rfl
    · rfl
    · intro k h1 h2; omega
    · intro k h; omega
    · rfl
    · intro k; rw [e]; split
      · rfl
      · rfl
    · intro k hk; have : k = 0 := by omega
      subst this; rfl
    · intro k hk; have : k = 0 := by omega
      subst this; rfl
    · rfl
    · intro k h1 h2; omega
    · rfl
    · intro k h1 h2; omega
  | succ n ih =>
    have e : exec chainP (build (n + 1)) = step chainP (step chainP (exec chainP (build n)) (.main (.call .eager .fresh () [2 * n]))) .run := by
      simp [exec, build]
    rw [e]
    generalize exec chainP (build n) = s at *
    have htop := ih.top
    have hnst : (s.coro n).status ≠ .done := by
      cases n with
      | zero => rw [ih.st0]; simp
      | succ n => rw [ih.st (n + 1) (by omega) (by omega)]; simp
    obtain ⟨s1, hs1⟩ : ∃ s1, step chainP s (.main (.call .eager .fresh () [2 * n])) = s1 := ⟨_, rfl⟩
    have h1 : s1 = { s with
        coro := fun i => if i = n + 1 then { kind := .eager, code := some (.user .fresh), inp := .start [2 * n + 1] (), rc := 2, selfRef := true, owned := [2 * n + 1], status := .running } else s.coro i
        nc := n + 2
        obj := fun i => if i = 2 * n + 2 then { alive := true, owner := .user, kind := .eager, handle := some (n + 1) }
          else if i = 2 * n + 1 then { alive := true, owner := .user, kind := .eager, handle := some n }
          else if i = 2 * n then { s.obj (2 * n) with handle := none } else s.obj i
        no := 2 * n + 3
        stack := [.body (n + 1)]
        log := s.log ++ [.spawned (n + 1) .eager] ++ [.started (n + 1)] } := by
      rw [← hs1]
      simp [step, ih.ub, State.mayAct, ih.stack, doUser, moveArgs, State.usable, htop, moveObj, State.setObj, spawn, State.setCoro, State.emit, State.push, ih.no, ih.nc]
    obtain ⟨s2, hs2⟩ : ∃ s2, step chainP s1 .run = s2 := ⟨_, rfl⟩
    rw [hs1, hs2]
    have h2 : s2 = { s with
        coro := fun i => if i = n + 1 then { kind := .eager, code := some (.user .waiting), inp := .start [2 * n + 1] (), rc := 2, selfRef := true, owned := [2 * n + 1], status := .waitTask n }
          else if i = n then { s.coro n with awaiters := [n + 1] } else s.coro i
        nc := n + 2
        obj := fun i => if i = 2 * n + 2 then { alive := true, owner := .user, kind := .eager, handle := some (n + 1) }
          else if i = 2 * n + 1 then { alive := true, owner := .user, kind := .eager, handle := some n }
          else if i = 2 * n then { s.obj (2 * n) with handle := none } else s.obj i
        no := 2 * n + 3
        stack := []
        log := s.log ++ [.spawned (n + 1) .eager] ++ [.started (n + 1)] ++ [.awaitReg (n + 1) n] } := by
      rw [← hs2, h1]
      simp [step, ih.ub, run, codeNext, chainP, chainNext, doAct, doUser, awaitObj, State.usable, State.setCoro, State.emit, State.pop, hnst, ih.fr, ih.awn]
      funext i
      by_cases h1 : i = n + 1
      · subst h1; simp
      · by_cases h2 : i = n
        · subst h2; simp
        · simp [h1, h2]
    rw [h2]
    clear hs2 h2 hs1 h1
    constructor <;> dsimp only
    · exact ih.ub
    · omega
    · rw [if_neg (by omega)]
      by_cases h : (0 : Nat) = n
      · rw [if_pos h, ← h]; exact ih.st0
      · rw [if_neg h]; exact ih.st0
    · intro k h1 h2
      by_cases hk : k = n + 1
      · rw [if_pos hk, hk]; rfl
      · rw [if_neg hk]
        by_cases hk' : k = n
        · rw [if_pos hk', hk']; exact ih.st n (by omega) (by omega)
        · rw [if_neg hk']; exact ih.st k h1 (by omega)
    · intro k h1
      rw [if_neg (by omega)]
      by_cases hk' : k = n
      · rw [if_pos hk', hk']
      · rw [if_neg hk']; exact ih.aw k (by omega)
    · rw [if_pos rfl]
    · intro k
      split
      · rfl
      · split
        · exact ih.fr n
        · exact ih.fr k
    · intro k hk
      split
      · rfl
      · split
        · exact ih.code n (by omega)
        · exact ih.code k (by omega)
    · intro k hk
      split
      · rfl
      · split
        · exact ih.rc n (by omega)
        · exact ih.rc k (by omega)
    · rw [if_neg (by omega)]
      by_cases h : (0 : Nat) = n
      · rw [if_pos h, ← h]; exact ih.ow0
      · rw [if_neg h]; exact ih.ow0
    · intro k h1 h2
      by_cases hk : k = n + 1
      · rw [if_pos hk, hk]; rfl
      · rw [if_neg hk]
        by_cases hk' : k = n
        · rw [if_pos hk', hk']; exact ih.ow n (by omega) (by omega)
        · rw [if_neg hk']; exact ih.ow k h1 (by omega)
    · rw [if_pos (by omega)]
    · intro k h1 h2
      by_cases hk : k = n + 1
      · rw [if_neg (by omega), if_pos (by omega), hk]; rfl
      · rw [if_neg (by omega), if_neg (by omega), if_neg (by omega)]; exact ih.par k h1 (by omega)

/-- The activations of `j + 1` coroutines that are resuming their awaiters. -/
def tower : Nat → List Frame
  | 0 => [.final 0]
  | j + 1 => .final (j + 1) :: tower j

/-- The activations of `j` of them. -/
def towers : Nat → List Frame
  | 0 => []
  | j + 1 => tower j

/-- The by-value parameter of coroutine `k`. -/
def paramOf : Nat → List Nat
  | 0 => []
  | j + 1 => [2 * j + 1]

/-- The chain when the first `j + 1` have finished, each inside the one before. -/
structure Comp (n j : Nat) (s : State Link1 Unit Unit) : Prop where
  ub : s.ub = none
  stack : s.stack = tower j
  dn : ∀ k, k ≤ j → (s.coro k).status = .done ∧ (s.coro k).result = some (.val ())
  fi : ∀ k, k < j → (s.coro k).fin = []
  fij : (s.coro j).fin = if j < n then [j + 1] else []
  st : ∀ k, j < k → k ≤ n → (s.coro k).status = .waitTask (k - 1)
  aw : ∀ k, j < k → k < n → (s.coro k).awaiters = [k + 1]
  awn : j < n → (s.coro n).awaiters = []
  fr : ∀ k, (s.coro k).freed = false
  code : ∀ k, k ≤ n → (s.coro k).code = some (.user .waiting)
  rc : ∀ k, k ≤ n → (s.coro k).rc = 2
  ow0 : (s.coro 0).owned = []
  ow : ∀ k, 0 < k → k ≤ n → (s.coro k).owned = [2 * k - 1]
  top : s.obj (2 * n) = { alive := true, owner := .user, kind := .eager, handle := some n }
  par : ∀ k, 0 < k → k ≤ n → s.obj (2 * k - 1) = { alive := true, owner := .user, kind := .eager, handle := some (k - 1) }

theorem comp_zero (n : Nat) (s : State Link1 Unit Unit) (h : Built n s) : Comp n 0 (step chainP (step chainP s (.fire 0 (.val ()))) .run) := by
  have hc := h.code 0 (Nat.zero_le _)
  obtain ⟨s1, hs1⟩ : ∃ s1, step chainP s (.fire 0 (.val ())) = s1 := ⟨_, rfl⟩
  have h1 : s1 = { s with 
      coro := fun i => if i = 0 then { s.coro 0 with status := .running, inp := .res (.val ()) } else s.coro i
      stack := [.body 0]
      log := s.log ++ [.extRes 0 (.val ())] } := by
    rw [← hs1]
    simp [step, h.ub, State.mayAct, h.stack, h.st0, State.setCoro, State.emit, State.push]
  obtain ⟨s2, hs2⟩ : ∃ s2, step chainP s1 .run = s2 := ⟨_, rfl⟩
  have h2 : s2 = { s with
      coro := fun i => if i = 0 then { s.coro 0 with status := .done, inp := .res (.val ()), result := some (.val ()), fin := (s.coro 0).awaiters, code := some (.user .waiting) } else s.coro i
      stack := [.final 0]
      log := s.log ++ [.extRes 0 (.val ())] ++ [.finished 0 (.val ())] } := by
    rw [← hs2, h1]
    simp [step, h.ub, run, h.fr, hc, codeNext, chainP, chainNext, doAct, doUser, finish, State.setCoro, State.emit, State.push, State.pop]
    funext i
    by_cases hi : i = 0
    · subst hi; simp
    · simp [hi]
  rw [hs1, hs2, h2]
  clear hs1 hs2 h1 h2
  constructor <;> dsimp only
  · exact h.ub
  · rfl
  · intro k hk; have : k = 0 := by omega
    subst this; exact ⟨rfl, rfl⟩
  · intro k hk; omega
  · rw [if_pos rfl]
    dsimp only
    split
    · exact h.aw 0 (by assumption)
    · have := h.awn; have e : n = 0 := by omega
      subst e; exact this
  · intro k h1 h2; rw [if_neg (by omega)]; exact h.st k h1 h2
  · intro k h1 h2; rw [if_neg (by omega)]; exact h.aw k h2
  · intro h1; rw [if_neg (by omega)]; exact h.awn
  · intro k; split
    · exact h.fr 0
    · exact h.fr k
  · intro k hk; split
    · rfl
    · exact h.code k hk
  · intro k hk; split
    · exact h.rc 0 (by omega)
    · exact h.rc k hk
  · exact h.ow0
  · intro k h1 h2; rw [if_neg (by omega)]; exact h.ow k h1 h2
  · exact h.top
  · exact h.par

theorem comp_succ (n j : Nat) (hj : j < n) (s : State Link1 Unit Unit) (h : Comp n j s) : Comp n (j + 1) (step chainP (step chainP s .run) .run) := by
  have hc := h.code (j + 1) (by omega)
  have hfj := h.fij
  rw [if_pos hj] at hfj
  have hst := h.st (j + 1) (by omega) (by omega)
  obtain ⟨t, ht⟩ : ∃ t, tower j = .final j :: t := by cases j <;> exact ⟨_, rfl⟩
  have hstk : s.stack = .final j :: t := by rw [h.stack, ht]
  obtain ⟨s1, hs1⟩ : ∃ s1, step chainP s .run = s1 := ⟨_, rfl⟩
  have h1 : s1 = { s with
      coro := fun i => if i = j + 1 then { s.coro (j + 1) with status := .running, inp := .res (.val ()) } else if i = j then { s.coro j with fin := [] } else s.coro i
      stack := .body (j + 1) :: tower j
      log := s.log ++ [.gotWoken (j + 1) j (.val ())] } := by
    rw [← hs1]
    simp [step, h.ub, run, hstk, h.fr, hfj, State.setCoro, hst, (h.dn j (Nat.le_refl _)).2, State.emit, State.push, afterRead, chainP, ht]
    funext i
    by_cases h1 : i = j + 1
    · subst h1; simp
    · by_cases h2 : i = j
      · subst h2; simp
      · simp [h1, h2]
  obtain ⟨s2, hs2⟩ : ∃ s2, step chainP s1 .run = s2 := ⟨_, rfl⟩
  have h2 : s2 = { s with
      coro := fun i => if i = j + 1 then { s.coro (j + 1) with status := .done, inp := .res (.val ()), result := some (.val ()), fin := (s.coro (j + 1)).awaiters, code := some (.user .waiting) }
        else if i = j then { s.coro j with fin := [] } else s.coro i
      stack := .final (j + 1) :: tower j
      log := s.log ++ [.gotWoken (j + 1) j (.val ())] ++ [.finished (j + 1) (.val ())] } := by
    rw [← hs2, h1]
    simp [step, h.ub, run, h.fr, hc, codeNext, chainP, chainNext, doAct, doUser, finish, State.setCoro, State.emit, State.push, State.pop]
    funext i
    by_cases hi : i = j + 1
    · subst hi; simp
    · simp [hi]
  rw [hs1, hs2, h2]
  clear hs1 hs2 h1 h2
  constructor <;> dsimp only
  · exact h.ub
  · rfl
  · intro k hk
    by_cases h1 : k = j + 1
    · rw [if_pos h1]; exact ⟨rfl, rfl⟩
    · rw [if_neg h1]
      by_cases h2 : k = j
      · rw [if_pos h2]; exact h.dn j (Nat.le_refl _)
      · rw [if_neg h2]; exact h.dn k (by omega)
  · intro k hk
    rw [if_neg (by omega)]
    by_cases h2 : k = j
    · rw [if_pos h2]
    · rw [if_neg h2]; exact h.fi k (by omega)
  · rw [if_pos rfl]
    dsimp only
    split
    · exact h.aw (j + 1) (by omega) (by assumption)
    · have := h.awn hj; have e : j + 1 = n := by omega
      rw [e]; exact this
  · intro k h1 h2; rw [if_neg (by omega), if_neg (by omega)]; exact h.st k (by omega) h2
  · intro k h1 h2; rw [if_neg (by omega), if_neg (by omega)]; exact h.aw k (by omega) h2
  · intro h1; rw [if_neg (by omega), if_neg (by omega)]; exact h.awn hj
  · intro k
    split
    · exact h.fr _
    · split
      · exact h.fr _
      · exact h.fr k
  · intro k hk
    split
    · rfl
    · split
      · exact h.code j (by omega)
      · exact h.code k hk
  · intro k hk
    split
    · exact h.rc _ (by omega)
    · split
      · exact h.rc _ (by omega)
      · exact h.rc k hk
  · rw [if_neg (by omega)]
    split
    · rename_i e; rw [← e]; exact h.ow0
    · exact h.ow0
  · intro k h1 h2
    split
    · rename_i e; rw [e]; exact h.ow (j + 1) (by omega) (by omega)
    · split
      · rename_i e; rw [← e]; exact h.ow k h1 h2
      · exact h.ow k h1 h2
  · exact h.top
  · exact h.par

theorem comp (n : Nat) : ∀ j, j ≤ n → Comp n j (exec chainP (build n ++ complete j)) := by
  intro j
  induction j with
  | zero =>
    intro _
    have e : exec chainP (build n ++ complete 0) = step chainP (step chainP (exec chainP (build n)) (.fire 0 (.val ()))) .run := by simp [exec, complete]
    rw [e]; exact comp_zero n _ (built n)
  | succ j ih =>
    intro hj
    have e : exec chainP (build n ++ complete (j + 1)) = step chainP (step chainP (exec chainP (build n ++ complete j)) .run) .run := by simp [exec, complete]
    rw [e]; exact comp_succ n j hj _ (ih (by omega))

/-- The chain while the activations return: `j` of them are left. -/
structure Back (n j : Nat) (s : State Link1 Unit Unit) : Prop where
  ub : s.ub = none
  stack : s.stack = towers j
  dn : ∀ k, k ≤ n → (s.coro k).status = .done
  fi : ∀ k, k < j → (s.coro k).fin = []
  fr : ∀ k, (s.coro k).freed = false
  rc : ∀ k, k < j → (s.coro k).rc = 2
  rc' : ∀ k, j ≤ k → k ≤ n → (s.coro k).rc = 1
  ow0 : (s.coro 0).owned = []
  ow : ∀ k, 0 < k → k ≤ n → (s.coro k).owned = [2 * k - 1]
  top : s.obj (2 * n) = { alive := true, owner := .user, kind := .eager, handle := some n }
  par : ∀ k, 0 < k → k ≤ n → s.obj (2 * k - 1) = { alive := true, owner := .user, kind := .eager, handle := some (k - 1) }

theorem back_start (n : Nat) (s : State Link1 Unit Unit) (h : Comp n n s) : Back n (n + 1) s := by
  constructor
  · exact h.ub
  · exact h.stack
  · intro k hk; exact (h.dn k hk).1
  · intro k hk
    by_cases e : k = n
    · rw [e, h.fij, if_neg (by omega)]
    · exact h.fi k (by omega)
  · exact h.fr
  · intro k hk; exact h.rc k (by omega)
  · intro k h1 h2; omega
  · exact h.ow0
  · exact h.ow
  · exact h.top
  · exact h.par

theorem back_step (n j : Nat) (hj : j ≤ n) (s : State Link1 Unit Unit) (h : Back n (j + 1) s) : Back n j (step chainP s .run) := by
  obtain ⟨t, ht, htt⟩ : ∃ t, tower j = .final j :: t ∧ t = towers j := by cases j <;> exact ⟨_, rfl, rfl⟩
  have hstk : s.stack = .final j :: t := by rw [h.stack, ← ht]; rfl
  have h1 : step chainP s .run = { s with
      coro := fun i => if i = j then { s.coro j with selfRef := false, rc := 1 } else s.coro i
      stack := t } := by
    have hrc := h.rc j (by omega)
    have hf := h.fi j (by omega)
    simp [step, h.ub, run, hstk, h.fr, hf, State.setCoro, deref, State.pop, hrc]
    funext i
    by_cases hi : i = j
    · subst hi; simp
    · simp [hi]
  rw [h1]
  clear h1
  constructor <;> dsimp only
  · exact h.ub
  · exact htt
  · intro k hk; split
    · exact h.dn j hj
    · exact h.dn k hk
  · intro k hk; rw [if_neg (by omega)]; exact h.fi k (by omega)
  · intro k; split
    · exact h.fr j
    · exact h.fr k
  · intro k hk; rw [if_neg (by omega)]; exact h.rc k (by omega)
  · intro k h1 h2; split
    · rfl
    · exact h.rc' k (by omega) h2
  · split
    · rename_i e; rw [← e]; exact h.ow0
    · exact h.ow0
  · intro k h1 h2; split
    · rename_i e; rw [← e]; exact h.ow k h1 h2
    · exact h.ow k h1 h2
  · exact h.top
  · exact h.par

theorem back_all (n : Nat) : ∀ i j, i + j = n + 1 → Back n j (exec chainP (build n ++ complete n ++ unwind i)) := by
  intro i
  induction i with
  | zero =>
    intro j hj
    have : j = n + 1 := by omega
    subst this
    simp only [unwind, List.replicate_zero, List.append_nil]
    exact back_start n _ (comp n n (Nat.le_refl _))
  | succ i ih =>
    intro j hj
    have e : exec chainP (build n ++ complete n ++ unwind (i + 1)) = step chainP (exec chainP (build n ++ complete n ++ unwind i)) .run := by
      simp [exec, unwind, List.replicate_succ']
    rw [e]
    exact back_step n j (by omega) _ (ih (j + 1) (by omega))

/-- The chain while the frames are destroyed: those below `j` still exist. -/
structure Gone (n j : Nat) (s : State Link1 Unit Unit) : Prop where
  ub : s.ub = none
  stack : s.stack = .drops (paramOf j) :: List.replicate (n - j) (.drops [])
  dn : ∀ k, k < j → (s.coro k).status = .done
  fr : ∀ k, k < j → (s.coro k).freed = false
  rc : ∀ k, k < j → (s.coro k).rc = 1
  ow0 : (s.coro 0).owned = []
  ow : ∀ k, 0 < k → k < j → (s.coro k).owned = [2 * k - 1]
  par : ∀ k, 0 < k → k ≤ j → s.obj (2 * k - 1) = { alive := true, owner := .user, kind := .eager, handle := some (k - 1) }

theorem gone_start (n : Nat) (s : State Link1 Unit Unit) (h : Back n 0 s) : Gone n n (step chainP s (.main (.drop (2 * n)))) := by
  have hrc := h.rc' n (Nat.zero_le _) (Nat.le_refl _)
  have hdn := h.dn n (Nat.le_refl _)
  have hstk := h.stack
  simp only [towers, paramOf] at hstk
  have how : (s.coro n).owned.reverse = paramOf n := by
    cases n with
    | zero => rw [h.ow0]; rfl
    | succ n => rw [h.ow (n + 1) (by omega) (by omega)]; simp [paramOf]; omega
  have h1 : step chainP s (.main (.drop (2 * n))) = { s with
      coro := fun i => if i = n then { s.coro n with rc := 0, freed := true } else s.coro i
      obj := fun i => if i = 2 * n then { s.obj (2 * n) with alive := false, handle := none } else s.obj i
      stack := [.drops (s.coro n).owned.reverse]
      log := s.log ++ [.destroyed n] } := by
    simp [step, h.ub, State.mayAct, hstk, doUser, State.usable, h.top, State.reply, dropObj, State.setObj, deref, h.fr, hrc, hdn, State.setCoro, State.emit, State.push]
  rw [h1, how]
  clear h1
  constructor <;> dsimp only
  · exact h.ub
  · rw [Nat.sub_self]; rfl
  · intro k hk; rw [if_neg (by omega)]; exact h.dn k (by omega)
  · intro k hk; rw [if_neg (by omega)]; exact h.fr k
  · intro k hk; rw [if_neg (by omega)]; exact h.rc' k (by omega) (by omega)
  · split
    · rename_i e; rw [← e]; exact h.ow0
    · exact h.ow0
  · intro k h1 h2; rw [if_neg (by omega)]; exact h.ow k h1 (by omega)
  · intro k h1 h2; rw [if_neg (by omega)]; exact h.par k h1 h2

theorem gone_step (n j : Nat) (hj : j < n) (s : State Link1 Unit Unit) (h : Gone n (j + 1) s) : Gone n j (step chainP s .run) := by
  have hrc := h.rc j (by omega)
  have hdn := h.dn j (by omega)
  have hfr := h.fr j (by omega)
  have hstk := h.stack
  have hpar := h.par (j + 1) (by omega) (by omega)
  rw [show 2 * (j + 1) - 1 = 2 * j + 1 by omega] at hpar
  simp only [towers, paramOf] at hstk
  have how : (s.coro j).owned.reverse = paramOf j := by
    cases j with
    | zero => rw [h.ow0]; rfl
    | succ j => rw [h.ow (j + 1) (by omega) (by omega)]; simp [paramOf]; omega
  have h1 : step chainP s .run = { s with
      coro := fun i => if i = j then { s.coro j with rc := 0, freed := true } else s.coro i
      obj := fun i => if i = 2 * j + 1 then { s.obj (2 * j + 1) with alive := false, handle := none } else s.obj i
      stack := .drops (s.coro j).owned.reverse :: .drops [] :: List.replicate (n - (j + 1)) (.drops [])
      log := s.log ++ [.destroyed j] } := by
    simp [step, h.ub, run, hstk, State.pop, State.usable, hpar, dropObj, State.setObj, deref, hfr, hrc, hdn, State.setCoro, State.emit, State.push]
  rw [h1, how]
  clear h1
  constructor <;> dsimp only
  · exact h.ub
  · rw [show n - j = (n - (j + 1)) + 1 by omega, List.replicate_succ]
  · intro k hk; rw [if_neg (by omega)]; exact h.dn k (by omega)
  · intro k hk; rw [if_neg (by omega)]; exact h.fr k (by omega)
  · intro k hk; rw [if_neg (by omega)]; exact h.rc k (by omega)
  · split
    · rename_i e; rw [← e]; exact h.ow0
    · exact h.ow0
  · intro k h1 h2; rw [if_neg (by omega)]; exact h.ow k h1 (by omega)
  · intro k h1 h2; rw [if_neg (by omega)]; exact h.par k h1 (by omega)

theorem gone_all (n : Nat) : ∀ i j, i + j = n →
    Gone n j (exec chainP (build n ++ complete n ++ unwind (n + 1) ++ [.main (.drop (2 * n))] ++ unwind i)) := by
  intro i
  induction i with
  | zero =>
    intro j hj
    have : j = n := by omega
    subst this
    have e : exec chainP (build j ++ complete j ++ unwind (j + 1) ++ [.main (.drop (2 * j))] ++ unwind 0) =
        step chainP (exec chainP (build j ++ complete j ++ unwind (j + 1))) (.main (.drop (2 * j))) := by simp [exec, unwind]
    rw [e]
    exact gone_start j _ (back_all j (j + 1) 0 rfl)
  | succ i ih =>
    intro j hj
    have e : exec chainP (build n ++ complete n ++ unwind (n + 1) ++ [.main (.drop (2 * n))] ++ unwind (i + 1)) =
        step chainP (exec chainP (build n ++ complete n ++ unwind (n + 1) ++ [.main (.drop (2 * n))] ++ unwind i)) .run := by
      simp [exec, unwind, List.replicate_succ']
    rw [e]
    exact gone_step n j (by omega) _ (ih (j + 1) (by omega))

theorem build_flat (n : Nat) : ∀ ops, ops <+: build n → (exec chainP ops).stack.length ≤ 1 := by
  induction n with
  | zero =>
    intro ops h
    obtain ⟨t, ht⟩ := h
    unfold build at ht
    match ops, t, ht with
    | [], _, _ => decide
    | [a], _, ht =>
      simp at ht; rw [ht.1]; decide
    | [a, b], _, ht =>
      simp at ht; rw [ht.1, ht.2.1]; decide
    | a :: b :: c :: r, _, ht => simp at ht
  | succ n ih =>
    intro ops h
    unfold build at h
    rcases List.prefix_or_prefix_of_prefix h (List.prefix_append (build n) _) with h' | ⟨t, ht⟩
    · exact ih ops h'
    · subst ht
      rw [List.prefix_append_right_inj] at h
      have hb := built n
      have hb' := built (n + 1)
      have e2 : exec chainP (build (n + 1)) = exec chainP (build n ++ [.main (.call .eager .fresh () [2 * n]), .run]) := rfl
      obtain ⟨u, hu⟩ := h
      match t, u, hu with
      | [], _, _ => rw [List.append_nil, hb.stack]; simp
      | [a], _, hu =>
        simp at hu; rw [hu.1, exec, List.foldl_append]
        have e : List.foldl (step chainP) init (build n) = exec chainP (build n) := rfl
        rw [e]
        generalize exec chainP (build n) = s at *
        simp [step, hb.ub, State.mayAct, hb.stack, doUser, moveArgs, State.usable, hb.top, moveObj, State.setObj, spawn, State.setCoro, State.emit, State.push]
      | [a, b], _, hu =>
        simp at hu; rw [hu.1, hu.2.1, ← e2, hb'.stack]; simp
      | a :: b :: c :: r, _, hu => simp at hu

theorem tower_active (j : Nat) : (active (tower j)).length = j + 1 := by
  induction j with
  | zero => rfl
  | succ j ih => show (active (tower j)).length + 1 = _; rw [ih]

/-- Found: **a long chain needs a deep stack.** `n` times `task = next(std::move(task))`, each a coroutine that awaits the one before: building the chain
takes no depth at all (at most one activation at any time), but when what the first one waits for completes, all `n + 1` coroutines are nested on the
native stack (`awaiter.resume()` is called from within the completion), and destroying the last Task destroys all `n + 1` frames nested in each other. -/
theorem C84_found_chain (n : Nat) :
    (∀ ops, ops <+: build n → (exec chainP ops).stack.length ≤ 1) ∧ (exec chainP (build n)).stack = [] ∧
    (exec chainP (build n ++ complete n)).ub = none ∧ (active (exec chainP (build n ++ complete n)).stack).length = n + 1 ∧
    (exec chainP (build n ++ complete n ++ unwind (n + 1))).stack = [] ∧
    (exec chainP (build n ++ complete n ++ unwind (n + 1) ++ [.main (.drop (2 * n))] ++ unwind n)).ub = none ∧
    (exec chainP (build n ++ complete n ++ unwind (n + 1) ++ [.main (.drop (2 * n))] ++ unwind n)).stack.length = n + 1 := by
  refine ⟨build_flat n, (built n).stack, (comp n n (Nat.le_refl _)).ub, ?_, (back_all n (n + 1) 0 rfl).stack, (gone_all n n 0 rfl).ub, ?_⟩
  · rw [(comp n n (Nat.le_refl _)).stack]; exact tower_active n
  · rw [(gone_all n n 0 rfl).stack]; simp

end QCoro.Task
