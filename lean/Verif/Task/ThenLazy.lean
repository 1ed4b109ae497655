import Verif.Task.ThenMore

/-! Property C08 through `then()`: what kind of coroutine a continuation is, and what a call to `then` executes. -/
namespace QCoro.Task
variable {σ V E : Type}

theorem spawn_log (P : Prog σ V E) (s : State σ V E) (k code ps v own) :
    (spawn P s k code ps v own).log = s.log ++ (match k with | .eager => [.spawned s.nc .eager, .started s.nc] | .lazy => [.spawned s.nc .lazy]) := by
  cases k <;> simp [spawn, State.setCoro, State.setObj, State.emit, State.push]

theorem doUser_then_log (P : Prog σ V E) (s : State σ V E) (who) {o cfg} {a : UAct σ V E} (ha : a = .thenL o cfg ∨ a = .thenR o cfg)
    (hu : (doUser P s who a).ub = none) :
    ∃ i, (doUser P s who a).log = s.log ++ .thenMade s.nc (s.obj o).handle i :: (match cfg.cbTask.getD (s.obj o).kind with
      | .eager => [.spawned s.nc .eager, .started s.nc] | .lazy => [.spawned s.nc .lazy]) := by
  rcases ha with rfl | rfl
  · simp only [doUser] at hu ⊢
    split at hu
    · rename_i hx
      rw [if_pos hx]
      refine ⟨cfg.plain.info false, ?_⟩
      rw [spawn_log]; cases who <;> simp [State.reply, State.emit, State.setCoro, thenKind]
    · simp [State.fail] at hu
  · simp only [doUser] at hu ⊢
    split at hu
    · rename_i hx
      rw [if_pos hx]
      refine ⟨cfg.plain.info true, ?_⟩
      rw [spawn_log]; cases who <;> simp [State.reply, State.emit, State.setCoro, thenKind, moveObj, State.setObj]
    · simp [State.fail] at hu

/-- C08. `then` on a LazyTask with an ordinary callback, or on any Task with a callback that returns a LazyTask: the call executes
nothing (neither the task nor the callback); it returns a new LazyTask. -/
theorem C08_then_lazy (P : Prog σ V E) (ops op) (who : Option Nat) (o : Nat) (cfg : ThenCfg σ)
    (hp : Performs P (exec P ops) op who (.thenL o cfg) ∨ Performs P (exec P ops) op who (.thenR o cfg))
    (hu : (exec P (ops ++ [op])).ub = none)
    (hk : cfg.cbTask = some .lazy ∨ (cfg.cbTask = none ∧ ((exec P ops).obj o).kind = .lazy)) :
    ∃ t h i, (exec P (ops ++ [op])).log = (exec P ops).log ++ [.thenMade t h i, .spawned t .lazy] ∧ h = ((exec P ops).obj o).handle ∧
      ∀ k, .spawned t k ∉ (exec P ops).log := by
  rw [exec_snoc] at hu ⊢
  have hn : ∀ k, .spawned (exec P ops).nc k ∉ (exec P ops).log := by
    intro k hm
    have := ((exec_linv P ops).kd _ k).1 hm
    omega
  have key : ∀ a : UAct σ V E, (a = .thenL o cfg ∨ a = .thenR o cfg) → Performs P (exec P ops) op who a →
      ∃ i, (step P (exec P ops) op).log = (exec P ops).log ++ [.thenMade (exec P ops).nc ((exec P ops).obj o).handle i, .spawned (exec P ops).nc .lazy] := by
    intro a ha hp
    obtain ⟨s1, e, h1, h2, h3, _⟩ := hp.step
    rw [e] at hu ⊢
    obtain ⟨i, h⟩ := doUser_then_log P s1 who ha hu
    refine ⟨i, ?_⟩
    rw [h, h1, h2, h3]
    have : cfg.cbTask.getD ((exec P ops).obj o).kind = .lazy := by
      rcases hk with hk | ⟨hk, hk'⟩ <;> simp [hk] <;> assumption
    rw [this]
  rcases hp with hp | hp
  · obtain ⟨i, h⟩ := key _ (.inl rfl) hp; exact ⟨_, _, i, h, rfl, hn⟩
  · obtain ⟨i, h⟩ := key _ (.inr rfl) hp; exact ⟨_, _, i, h, rfl, hn⟩

/-- C07. In all other cases the continuation is an ordinary Task, which starts at once. -/
theorem C07_then_eager (P : Prog σ V E) (ops op) (who : Option Nat) (o : Nat) (cfg : ThenCfg σ)
    (hp : Performs P (exec P ops) op who (.thenL o cfg) ∨ Performs P (exec P ops) op who (.thenR o cfg))
    (hu : (exec P (ops ++ [op])).ub = none)
    (hk : cfg.cbTask = some .eager ∨ (cfg.cbTask = none ∧ ((exec P ops).obj o).kind = .eager)) :
    ∃ t h i, (exec P (ops ++ [op])).log = (exec P ops).log ++ [.thenMade t h i, .spawned t .eager, .started t] ∧ h = ((exec P ops).obj o).handle ∧
      ∀ k, .spawned t k ∉ (exec P ops).log := by
  rw [exec_snoc] at hu ⊢
  have hn : ∀ k, .spawned (exec P ops).nc k ∉ (exec P ops).log := by
    intro k hm
    have := ((exec_linv P ops).kd _ k).1 hm
    omega
  have key : ∀ a : UAct σ V E, (a = .thenL o cfg ∨ a = .thenR o cfg) → Performs P (exec P ops) op who a →
      ∃ i, (step P (exec P ops) op).log = (exec P ops).log ++ [.thenMade (exec P ops).nc ((exec P ops).obj o).handle i, .spawned (exec P ops).nc .eager, .started (exec P ops).nc] := by
    intro a ha hp
    obtain ⟨s1, e, h1, h2, h3, _⟩ := hp.step
    rw [e] at hu ⊢
    obtain ⟨i, h⟩ := doUser_then_log P s1 who ha hu
    refine ⟨i, ?_⟩
    rw [h, h1, h2, h3]
    have : cfg.cbTask.getD ((exec P ops).obj o).kind = .eager := by
      rcases hk with hk | ⟨hk, hk'⟩ <;> simp [hk] <;> assumption
    rw [this]
  rcases hp with hp | hp
  · obtain ⟨i, h⟩ := key _ (.inl rfl) hp; exact ⟨_, _, i, h, rfl, hn⟩
  · obtain ⟨i, h⟩ := key _ (.inr rfl) hp; exact ⟨_, _, i, h, rfl, hn⟩

end QCoro.Task
