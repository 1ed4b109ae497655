import Verif.Await.Props
/-! What the awaiters do to the object they wait for. -/
namespace QCoro.Aw
variable {σ δ β : Type}

theorem unresumed_dev (a : Awaiter σ δ β) (s : State δ β) (op : Op σ δ) (h : (step a s op).out = []) :
    s.out = [] ∧ (step a s op).dev = device s.dev [op] := by
  have hr : ∀ s : State δ β, (s.resume a).out ≠ [] := by
    intro s; unfold State.resume; split <;> simp
  have hs : ∀ s : State δ β, (s.slot a).out = [] → s.out = [] ∧ (s.slot a).dev = s.dev := by
    intro s h
    unfold State.slot at h ⊢
    dsimp only at h ⊢
    split
    · rename_i hd; rw [if_pos hd] at h; exact ⟨h, rfl⟩
    · rename_i hd; rw [if_neg hd] at h; exact absurd h (hr _)
  rw [device_one]
  cases op with
  | sig x =>
    simp only [step] at h ⊢
    split at h
    · rename_i hc; rw [if_pos hc]; exact hs _ h
    · rename_i hc; rw [if_neg hc]; exact ⟨h, rfl⟩
  | dev d => exact ⟨h, rfl⟩
  | gone => exact ⟨h, rfl⟩
  | loop =>
    simp only [step] at h ⊢
    split at h
    · rename_i hc; rw [if_pos hc]; exact ⟨h, rfl⟩
    · exact absurd h (hr _)
  | time ms => exact ⟨h, rfl⟩
  | fire =>
    simp only [step] at h ⊢
    split at h
    · rename_i hc; rw [if_pos hc]; exact hs _ h
    · rename_i hc; rw [if_neg hc]; exact ⟨h, rfl⟩

theorem resumed_dev (a : Awaiter σ δ β) (s : State δ β) (op : Op σ δ) (h : s.out = []) (h' : (step a s op).out ≠ []) :
    ∃ to, (step a s op).out = [.got (a.result to s.dev).1] ∧ (step a s op).dev = (a.result to s.dev).2 := by
  have hr : ∀ s1 : State δ β, s1.out = [] → (s1.resume a).out = [.got (a.result s1.timedOut s1.dev).1] ∧ (s1.resume a).dev = (a.result s1.timedOut s1.dev).2 := by
    intro s1 h1; unfold State.resume; rw [h1]; exact ⟨rfl, rfl⟩
  have hs : ∀ s1 : State δ β, s1.out = [] → (s1.slot a).out ≠ [] →
      (s1.slot a).out = [.got (a.result s1.timedOut s1.dev).1] ∧ (s1.slot a).dev = (a.result s1.timedOut s1.dev).2 := by
    intro s1 h1 h2
    unfold State.slot at h2 ⊢
    dsimp only at h2 ⊢
    split
    · rename_i hd; rw [if_pos hd] at h2; exact absurd h1 h2
    · rename_i hd; rw [if_neg hd] at h2; exact hr _ h1
  cases op with
  | sig x =>
    simp only [step] at h' ⊢
    split
    · rename_i hc; rw [if_pos hc] at h'; exact ⟨_, hs _ h h'⟩
    · rename_i hc; rw [if_neg hc] at h'; exact absurd h h'
  | dev d => exact absurd h h'
  | gone => exact absurd h h'
  | loop =>
    simp only [step] at h' ⊢
    split
    · rename_i hc; rw [if_pos hc] at h'; exact absurd h h'
    · exact ⟨_, hr _ h⟩
  | time ms => exact absurd h h'
  | fire =>
    simp only [step] at h' ⊢
    split
    · rename_i hc; rw [if_pos hc] at h'; exact ⟨_, hs { s with timer := none, timedOut := true } h h'⟩
    · rename_i hc; rw [if_neg hc] at h'; exact absurd h h'

/-- While it waits, an awaiter leaves the object alone. -/
theorem waiting_dev (a : Awaiter σ δ β) (d : δ) (hr : a.ready (some d) = false) (ops : List (Op σ δ)) (h : (run a (some d) [] ops).out = []) :
    (run a (some d) [] ops).dev = device (some d) ops := by
  induction ops using QCoro.snocInd with
  | nil =>
    simp only [run, List.foldl, start, hr] at h ⊢
    rw [if_neg (by simp)] at h ⊢
    split at h
    · simp [State.resume] at h
    · rename_i hs; rw [if_neg hs]
  | snoc ops op ih =>
    rw [run_snoc] at h ⊢
    obtain ⟨h1, h2⟩ := unresumed_dev a _ op h
    rw [h2, ih h1, ← device_append]

/-- C60. What `co_await` on a server takes: while waiting nothing; a connection that is returned was the oldest pending one and is pending no
more, nothing else changes; if nullptr is returned nothing is taken. -/
theorem C60_server_takes (t : Int) (ops : List (Op ServerSig (List Nat))) (op : Op ServerSig (List Nat)) (h : (run (connOp t) (some []) [] ops).out = []) :
    (run (connOp t) (some []) [] ops).dev = device (some []) ops ∧
    (∀ c, (run (connOp t) (some []) [] (ops ++ [op])).out = [.got (.ok (some c))] →
      ∃ rest, device (some []) ops = some (c :: rest) ∧ (run (connOp t) (some []) [] (ops ++ [op])).dev = some rest) ∧
    ((run (connOp t) (some []) [] (ops ++ [op])).out = [.got (.ok none)] → (run (connOp t) (some []) [] (ops ++ [op])).dev = device (some []) ops) := by
  have hd := waiting_dev (connOp t) [] rfl ops h
  refine ⟨hd, fun c hc => ?_, fun hc => ?_⟩
  all_goals
    rw [run_snoc] at hc ⊢
    obtain ⟨to, h1, h2⟩ := resumed_dev _ _ op h (by rw [hc]; simp)
    rw [h2, ← hd]
    rw [hc] at h1
    generalize (run (connOp t) (some []) [] ops).dev = x at h1 ⊢
    cases to <;> rcases x with _ | _ | ⟨c', l⟩ <;> simp_all [connOp]

/-- … and the connection that is there already. -/
theorem C60_server_takes_immediate (t : Int) (c : Nat) (l : List Nat) : (run (connOp t) (some (c :: l)) [] []).dev = some l := rfl

-- two connections arrive; the first one is taken, the second one stays
example : (run (connOp (-1)) (some []) [] [.dev [1, 2], .sig .newConnection, .loop]).out = [.got (.ok (some 1))] ∧
    (run (connOp (-1)) (some []) [] [.dev [1, 2], .sig .newConnection, .loop]).dev = some [2] := by decide

/-- C49. Awaiting a timer does nothing to it. -/
theorem C49_leaves (d : Bool) (ops : List (Op TimerSig Bool)) (op : Op TimerSig Bool) (h : (run timerOp (some d) [] ops).out = []) :
    (run timerOp (some d) [] ops).dev = device (some d) ops ∧
    ((run timerOp (some d) [] (ops ++ [op])).out ≠ [] → (run timerOp (some d) [] (ops ++ [op])).dev = device (some d) ops) := by
  have hr : d = true := by
    cases d
    · rw [C49_immediate (some false) (by simp)] at h; simp at h
    · rfl
  subst hr
  have hd := waiting_dev timerOp true rfl ops h
  refine ⟨hd, fun hc => ?_⟩
  rw [run_snoc] at hc ⊢
  obtain ⟨to, h1, h2⟩ := resumed_dev _ _ op h hc
  rw [h2, ← hd]
  rfl

end QCoro.Aw
