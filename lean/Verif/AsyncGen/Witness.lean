import Verif.AsyncGen.Place
/-! # The theorems of C85 (generators) applied to concrete runs: their hypotheses are met -/
namespace QCoro.AGen

set_option maxRecDepth 32000

/-- Two loops over a generator, each on its own thread. -/
theorem settled_turns : TurnByTurn demo settled := turnByTurn_of (by decide)
theorem travels_turns : TurnByTurn demo travels := turnByTurn_of (by decide)
/-- The thread each coroutine of `settled` was called on. -/
def homeOf (c : Nat) : Nat := if c < 2 then 1 else 2

theorem split {l : List (Nat × Ev DV DE)} (n t e) (h : l[n]? = some (t, e)) : l = l.take n ++ (t, e) :: l.drop (n + 1) := by
  obtain ⟨hn, h⟩ := List.getElem?_eq_some_iff.1 h
  have := (List.take_append_drop n l).symm
  rw [List.drop_eq_getElem_cons hn, h] at this
  exact this

example := C85_gen_same_history demo settled settled_turns
example : place 3 ((thist demo settled).take 26) = some 2 := C85_gen_stays demo settled settled_turns _ _ _ _ (split 26 2 (.yielded 3 10) (by decide)) 3 (by decide)
example : place 0 ((thist demo travels).take 19) = some 1 ∧ place 1 ((thist demo travels).take 19 ++ [(1, .adv 1 0 (.inc 0))]) = some 1 :=
  C85_gen_producer demo travels travels_turns _ _ _ _ _ _ (split 19 1 (.adv 1 0 (.inc 0)) (by decide))
example : place 1 ((thist demo travels).take 10) = some 2 ∧ place 0 ((thist demo travels).take 10 ++ [(2, .got 1 0 0)]) = some 2 :=
  C85_gen_consumer demo travels travels_turns _ _ _ _ _ _ (split 10 2 (.got 1 0 0) (by decide)) (.inl ⟨0, rfl⟩)

theorem home_calls : ∀ t c, (t, .spawned c) ∈ thist demo settled → homeOf c = t := by
  have : ∀ p ∈ thist demo settled, (match p.2 with | .spawned c => homeOf c == p.1 | _ => true) = true := by decide
  intro t c h; simpa using this _ h
theorem home_uses : ∀ t g k c, (t, .adv g k c) ∈ thist demo settled → homeOf g = homeOf k := by
  have : ∀ p ∈ thist demo settled, (match p.2 with | .adv g k _ => homeOf g == homeOf k | _ => true) = true := by decide
  intro t g k c h; simpa using this _ h
theorem home_outside : ∀ pre t c post, thist demo settled = pre ++ (t, .resumed c) :: post → place c pre = some t := by
  have : ∀ i < (thist demo settled).length, (match (thist demo settled)[i]? with | some (t, .resumed c) => place c ((thist demo settled).take i) == some t | _ => true) = true := by decide
  intro pre t c post h
  have := this pre.length (by rw [h]; simp)
  rw [h] at this
  simpa using this

example : 2 = homeOf 2 :=
  C85_gen_home demo settled settled_turns homeOf home_calls home_uses home_outside 2 (.read 2 3 1 10) 2 (by decide) (.inr (by decide))

end QCoro.AGen
