import Verif.Util.Basic
/-
C56: `QCoro::ImageProvider` (`qcoro/quick/qcoroimageprovider.cpp`). It attaches a continuation to a Task with `then`; what `then` does is the
subject of the Task model (C15, C16).
-/
set_option linter.unusedSimpArgs false
/-! ### C56: ImageProvider -/
namespace QCoro.ImageProvider

/-- The coroutine `asyncRequestImage`. User code, called at `qcoro/quick/qcoroimageprovider.cpp:24`. -/
inductive TS | running | done (img : Nat) | failed
deriving DecidableEq, Repr

/-- Bookkeeping of the model, no counterpart in /repo. -/
inductive Ev
  | requested                 -- requestImageResponse returns the response to the engine
  | produced (img : Nat)      -- asyncRequestImage co_returns
  | threw                     -- asyncRequestImage fails
  | cancelled                 -- the engine calls QQuickImageResponse::cancel()
  | deleted                   -- the response is destroyed
  | finished                  -- QQuickImageResponse::finished is emitted
deriving DecidableEq, Repr

/-- One `QCoroImageResponse` (`qcoro/quick/qcoroimageprovider.cpp:10-18,35-42`) and its coroutine. -/
structure State where
  task : TS := .running
  waiting : Bool := false     -- the continuation waits for the task
  alive : Bool := false       -- the response exists
  image : Option Nat := none  -- `m_image`
  ub : Bool := false          -- a destroyed response was accessed
  log : List Ev := []

/-- `response->reportFinished(std::move(image))` (`qcoroimageprovider.cpp:28-30`, `:39-42`): no guard on the response. -/
def report (s : State) (img : Nat) : State :=
  if s.alive then { s with image := some img, log := s.log ++ [.finished] } else { s with ub := true }

/-- Models the environment (application, event loop, operating system) rather than code of /repo. -/
inductive Op
  | request                   -- `requestImageResponse` (`:23-33`)
  | produce (img : Nat)
  | throw_
  | cancel                    -- base class implementation: does nothing
  | delete
deriving DecidableEq

/-- One request. The coroutine may already have completed when `then` is called (`produce`/`throw_` before `request`).
(`qcoro/quick/qcoroimageprovider.cpp:23-42`). -/
def step (s : State) (op : Op) : State :=
  if s.ub then s else
  match op with
  | .request =>
    if .requested ∈ s.log then s else
    match s.task with
    | .running => { s with alive := true, waiting := true, log := s.log ++ [.requested] }
    | .done i => report { s with alive := true, log := s.log ++ [.requested] } i
    | .failed => { s with alive := true, log := s.log ++ [.requested] }
  | .produce i =>
    if s.task = .running then
      (if s.waiting then report { s with task := .done i, waiting := false, log := s.log ++ [.produced i] } i
       else { s with task := .done i, log := s.log ++ [.produced i] })
    else s
  | .throw_ => if s.task = .running then { s with task := .failed, waiting := false, log := s.log ++ [.threw] } else s
  | .cancel => { s with log := s.log ++ [.cancelled] }
  | .delete => if s.alive then { s with alive := false, log := s.log ++ [.deleted] } else s

/-- Bookkeeping of the model, no counterpart in /repo. -/
def exec (ops : List Op) : State := ops.foldl step {}

theorem exec_snoc (ops : List Op) (op : Op) : exec (ops ++ [op]) = step (exec ops) op := by simp [exec]

/-- Proof invariant, no counterpart in /repo. -/
structure Inv (s : State) : Prop where
  prod : ∀ i, .produced i ∈ s.log ↔ s.task = .done i
  thr : .threw ∈ s.log ↔ s.task = .failed
  wait : s.waiting = true ↔ (.requested ∈ s.log ∧ s.task = .running)
  alive : s.alive = true ↔ (.requested ∈ s.log ∧ .deleted ∉ s.log)
  cnt : s.log.count .finished = if s.image.isSome then 1 else 0
  img : ∀ i, s.image = some i → s.task = .done i ∧ .requested ∈ s.log
  fin : s.ub = false → (∃ i, s.task = .done i) → .requested ∈ s.log → s.image.isSome
  ub : s.ub = true → .deleted ∈ s.log ∧ .requested ∈ s.log ∧ ∃ i, s.task = .done i
  del : .deleted ∈ s.log → .requested ∈ s.log

theorem inv_step (s : State) (h : Inv s) (op : Op) : Inv (step s op) := by
  obtain ⟨h1, h2, h3, h4, h5, h6, h7, h8, h9⟩ := h
  by_cases hub : s.ub = true
  · simp only [step]; rw [if_pos hub]; exact ⟨h1, h2, h3, h4, h5, h6, h7, h8, h9⟩
  have hub' : s.ub = false := by simpa using hub
  have himg : (∀ i, s.task ≠ .done i) → s.image = none := by
    intro hn
    cases hi : s.image with
    | none => rfl
    | some i => exact absurd (h6 i hi).1 (hn i)
  have himg' : .requested ∉ s.log → s.image = none := by
    intro hn
    cases hi : s.image with
    | none => rfl
    | some i => exact absurd (h6 i hi).2 hn
  cases op with
  | request =>
    simp only [step]; rw [if_neg hub]
    by_cases hr : .requested ∈ s.log
    · rw [if_pos hr]; exact ⟨h1, h2, h3, h4, h5, h6, h7, h8, h9⟩
    rw [if_neg hr]
    have hi := himg' hr
    have hd : .deleted ∉ s.log := fun x => hr (h9 x)
    have key : ∀ t, s.task = t → Inv (match s.task with
      | .running => { s with alive := true, waiting := true, log := s.log ++ [.requested] }
      | .done i => report { s with alive := true, log := s.log ++ [.requested] } i
      | .failed => { s with alive := true, log := s.log ++ [.requested] }) := by
      intro t ht
      cases t <;> simp only [ht, report] <;> constructor <;> simp_all
    exact key _ rfl
  | produce i =>
    simp only [step]; rw [if_neg hub]
    by_cases ht : s.task = .running
    · rw [if_pos ht]
      have hi := himg (by rw [ht]; simp)
      by_cases hw : s.waiting = true
      · rw [if_pos hw]
        have hr := (h3.1 hw).1
        simp only [report]
        by_cases ha : s.alive = true
        · have hd := (h4.1 ha).2
          rw [if_pos ha]
          (constructor <;> simp_all) <;> (intro j; exact eq_comm)
        · have hd : .deleted ∈ s.log := by
            by_cases hd : .deleted ∈ s.log
            · exact hd
            · exact absurd (h4.2 ⟨hr, hd⟩) ha
          rw [if_neg ha]
          (constructor <;> simp_all) <;> (intro j; exact eq_comm)
      · rw [if_neg hw]
        have hr : .requested ∉ s.log := fun x => hw (h3.2 ⟨x, ht⟩)
        (constructor <;> simp_all) <;> (intro j; exact eq_comm)
    · rw [if_neg ht]; exact ⟨h1, h2, h3, h4, h5, h6, h7, h8, h9⟩
  | throw_ =>
    simp only [step]; rw [if_neg hub]
    by_cases ht : s.task = .running
    · rw [if_pos ht]
      have hi := himg (by rw [ht]; simp)
      constructor <;> simp_all
    · rw [if_neg ht]; exact ⟨h1, h2, h3, h4, h5, h6, h7, h8, h9⟩
  | cancel =>
    simp only [step]; rw [if_neg hub]
    constructor <;> simp_all
  | delete =>
    simp only [step]; rw [if_neg hub]
    by_cases ha : s.alive = true
    · rw [if_pos ha]
      constructor <;> simp_all
    · rw [if_neg ha]; exact ⟨h1, h2, h3, h4, h5, h6, h7, h8, h9⟩

theorem inv_exec (ops : List Op) : Inv (exec ops) := by
  induction ops using snocInd with
  | nil => constructor <;> simp [exec]
  | snoc ops op ih => rw [exec_snoc]; exact inv_step _ ih op

/-- As long as no destroyed response is touched, `finished` has been emitted exactly once if the coroutine has produced the image
(before or after the response was made) and not otherwise; cancelling makes no difference. -/
theorem C56_finished_once (ops : List Op) (hub : (exec ops).ub = false) (hr : .requested ∈ (exec ops).log) :
    ((∃ i, .produced i ∈ (exec ops).log) → (exec ops).log.count .finished = 1) ∧
    ((∀ i, .produced i ∉ (exec ops).log) → .finished ∉ (exec ops).log) := by
  have h := inv_exec ops
  constructor
  · rintro ⟨i, hi⟩
    rw [h.cnt, if_pos (h.fin hub ⟨i, (h.prod i).1 hi⟩ hr)]
  · intro hn hf
    have := h.cnt
    have hp := List.count_pos_iff.2 hf
    by_cases hs : (exec ops).image.isSome = true
    · obtain ⟨i, hi⟩ := Option.isSome_iff_exists.1 hs
      exact hn i ((h.prod i).2 (h.img i hi).1)
    · rw [if_neg hs] at this; omega

/-- The texture of a finished response is the produced image. -/
theorem C56_image (ops : List Op) (i : Nat) (hf : .finished ∈ (exec ops).log) (hi : .produced i ∈ (exec ops).log) :
    (exec ops).image = some i := by
  have h := inv_exec ops
  have hp := List.count_pos_iff.2 hf
  rw [h.cnt] at hp
  by_cases hs : (exec ops).image.isSome = true
  · obtain ⟨j, hj⟩ := Option.isSome_iff_exists.1 hs
    have := (h.img j hj).1
    rw [(h.prod i).1 hi] at this
    cases this; exact hj
  · rw [if_neg hs] at hp; omega

/-- `finished` is never emitted twice. -/
theorem C56_at_most_once (ops : List Op) : (exec ops).log.count .finished ≤ 1 := by
  rw [(inv_exec ops).cnt]
  by_cases hs : (exec ops).image.isSome = true
  · rw [if_pos hs]; omega
  · rw [if_neg hs]; omega

/-- **Exactly when a destroyed response is touched**: the image is produced after the response was deleted. -/
theorem C56_ub_iff (ops : List Op) : (exec ops).ub = true ↔ ∃ p i q, (exec ops).log = p ++ .produced i :: q ∧ .deleted ∈ p := by
  have mid : ∀ (l : List Ev) (e : Ev), (∀ i, e ≠ .produced i) →
      ((∃ p i q, l ++ [e] = p ++ .produced i :: q ∧ .deleted ∈ p) ↔ ∃ p i q, l = p ++ .produced i :: q ∧ .deleted ∈ p) := by
    intro l e he
    constructor
    · rintro ⟨p, i, q, h, hd⟩
      rcases List.eq_nil_or_concat q with hq | ⟨q', x, hq⟩
      · subst hq
        obtain ⟨-, h4⟩ := List.append_inj' (s₁ := l) (t₁ := [e]) (s₂ := p) (t₂ := [.produced i]) (by simpa using h) rfl
        simp at h4; exact absurd h4 (he i)
      · subst hq
        obtain ⟨h3, -⟩ := List.append_inj' (s₁ := l) (t₁ := [e]) (s₂ := p ++ .produced i :: q') (t₂ := [x]) (by simpa using h) rfl
        exact ⟨p, i, q', h3, hd⟩
    · rintro ⟨p, i, q, h, hd⟩; exact ⟨p, i, q ++ [e], by simp [h], hd⟩
  have at_end : ∀ (l : List Ev) (i : Nat), (∀ i, .produced i ∉ l) → ((∃ p j q, l ++ [.produced i] = p ++ .produced j :: q ∧ .deleted ∈ p) ↔ .deleted ∈ l) := by
    intro l i hl
    constructor
    · rintro ⟨p, j, q, h, hd⟩
      rcases List.eq_nil_or_concat q with hq | ⟨q', x, hq⟩
      · subst hq
        obtain ⟨h3, -⟩ := List.append_inj' (s₁ := l) (t₁ := [.produced i]) (s₂ := p) (t₂ := [.produced j]) (by simpa using h) rfl
        rw [h3]; exact hd
      · subst hq
        obtain ⟨h3, -⟩ := List.append_inj' (s₁ := l) (t₁ := [.produced i]) (s₂ := p ++ .produced j :: q') (t₂ := [x]) (by simpa using h) rfl
        exact absurd (by rw [h3]; simp) (hl j)
    · intro h; exact ⟨l, i, [], rfl, h⟩
  induction ops using snocInd with
  | nil => simp [exec]
  | snoc ops op ih =>
    have h := inv_exec ops
    rw [exec_snoc]
    generalize exec ops = s at *
    by_cases hub : s.ub = true
    · simp only [step]; rw [if_pos hub]; exact ih
    have hub' : s.ub = false := by simpa using hub
    have hno : ¬ ∃ p i q, s.log = p ++ .produced i :: q ∧ .deleted ∈ p := fun x => hub (ih.2 x)
    simp only [step]; rw [if_neg hub]
    cases op with
    | request =>
      dsimp only
      by_cases hr : .requested ∈ s.log
      · rw [if_pos hr]; exact ih
      rw [if_neg hr]
      obtain ⟨t, ht⟩ : ∃ t, s.task = t := ⟨_, rfl⟩
      rw [ht]
      cases t with
      | running => dsimp only; rw [mid _ _ (by simp)]; exact ih
      | done i =>
        simp only [report, if_true]
        rw [mid _ _ (by simp), mid _ _ (by simp)]; exact ih
      | failed => dsimp only; rw [mid _ _ (by simp)]; exact ih
    | produce i =>
      dsimp only
      by_cases ht : s.task = .running
      · rw [if_pos ht]
        have hnp : ∀ j, .produced j ∉ s.log := by
          intro j hj; have := (h.prod j).1 hj; rw [ht] at this; cases this
        by_cases hw : s.waiting = true
        · rw [if_pos hw]
          simp only [report]
          by_cases ha : s.alive = true
          · rw [if_pos ha]
            dsimp only
            rw [mid _ _ (by simp), at_end _ _ hnp]
            simp [hub', (h.alive.1 ha).2]
          · rw [if_neg ha]
            dsimp only
            rw [at_end _ _ hnp]
            have hd : .deleted ∈ s.log := by
              by_cases hd : .deleted ∈ s.log
              · exact hd
              · exact absurd (h.alive.2 ⟨(h.wait.1 hw).1, hd⟩) ha
            simp [hd]
        · rw [if_neg hw]
          dsimp only
          rw [at_end _ _ hnp]
          have hr : .requested ∉ s.log := fun x => hw (h.wait.2 ⟨x, ht⟩)
          have hd : .deleted ∉ s.log := fun x => hr (h.del x)
          simp [hub', hd]
      · rw [if_neg ht]; exact ih
    | throw_ => dsimp only; split; dsimp only; rw [mid _ _ (by simp)]; exact ih; exact ih
    | cancel => dsimp only; rw [mid _ _ (by simp)]; exact ih
    | delete => dsimp only; split; dsimp only; rw [mid _ _ (by simp)]; exact ih; exact ih

/-- Found: if the coroutine fails, the response never finishes (the engine waits forever); no continuation handles the exception. -/
theorem C56_failure_never_finishes (ops : List Op) (h : .threw ∈ (exec ops).log) : .finished ∉ (exec ops).log := by
  intro hf
  have hi := inv_exec ops
  have hp := List.count_pos_iff.2 hf
  rw [hi.cnt] at hp
  by_cases hs : (exec ops).image.isSome = true
  · obtain ⟨j, hj⟩ := Option.isSome_iff_exists.1 hs
    have h1 := (hi.img j hj).1
    rw [hi.thr.1 h] at h1
    cases h1
  · rw [if_neg hs] at hp; omega

/-- Found: a response deleted (for example after cancellation) before the image is produced is accessed after its destruction. -/
theorem C56_deleted_uaf (ops : List Op) (hr : .requested ∈ (exec ops).log) (hd : .deleted ∈ (exec ops).log) (i : Nat)
    (hp : ∀ j, .produced j ∉ (exec ops).log) (hf : .threw ∉ (exec ops).log) : (exec (ops ++ [.produce i])).ub = true := by
  have h := inv_exec ops
  rw [exec_snoc]
  generalize exec ops = s at *
  have ht : s.task = .running := by
    obtain ⟨t, ht⟩ : ∃ t, s.task = t := ⟨_, rfl⟩
    cases t with
    | running => exact ht
    | done j => exact absurd ((h.prod j).2 ht) (hp j)
    | failed => exact absurd (h.thr.2 ht) hf
  simp only [step]
  by_cases hub : s.ub = true
  · rw [if_pos hub]; exact hub
  rw [if_neg hub, if_pos ht, if_pos (h.wait.2 ⟨hr, ht⟩)]
  simp only [report]
  rw [if_neg (fun ha => (h.alive.1 ha).2 hd)]

example : (exec [.request, .cancel, .delete, .produce 3]).ub = true := by decide

/-- The hypotheses are met, also with an image that is ready at once. -/
theorem C56_example : (exec [.request, .cancel, .produce 3, .delete]).log = [.requested, .cancelled, .produced 3, .finished, .deleted] ∧
    (exec [.request, .cancel, .produce 3, .delete]).ub = false ∧
    (exec [.produce 3, .request]).log = [.produced 3, .requested, .finished] ∧ (exec [.request, .throw_]).log = [.requested, .threw] := by decide

end QCoro.ImageProvider
