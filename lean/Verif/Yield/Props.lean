import Verif.Yield.Inv
/-
C82: a yielded value is the yielded object itself.
-/
set_option linter.unusedSimpArgs false
namespace QCoro.Yield

variable {σ V : Type}

/-! ### Which object -/

/-- `co_yield` of an lvalue or xvalue of the generator's own type, or of a derived one, yields that very object, not a copy. -/
theorem C82_yields_object (w : Which) (a : Arg) (o : Operand) :
    yields w a o = some .object ↔
      ¬ (w = .async ∧ a.ref = .rref) ∧ (o.rel = .same ∨ o.rel = .derived) ∧ o.cat ≠ .prvalue ∧ (o.const = true → a.const = true) := by
  obtain ⟨c, r⟩ := a
  obtain ⟨rel, cat, oc⟩ := o
  cases w <;> cases c <;> cases r <;> cases rel <;> cases cat <;> cases oc <;> simp [yields, overloads, bindL, bindR]

/-- `co_yield` of a prvalue, or of something that has to be converted (even of an lvalue), yields a temporary. -/
theorem C82_yields_temporary (w : Which) (a : Arg) (o : Operand) :
    yields w a o = some .temporary ↔
      ¬ (w = .async ∧ a.ref = .rref) ∧
        (o.rel = .convertible ∨ ((o.rel = .same ∨ o.rel = .derived) ∧ o.cat = .prvalue ∧ (o.const = true → a.const = true))) := by
  obtain ⟨c, r⟩ := a
  obtain ⟨rel, cat, oc⟩ := o
  cases w <;> cases c <;> cases r <;> cases rel <;> cases cat <;> cases oc <;> simp [yields, overloads, bindL, bindR]

/-- Everything else does not compile: another type, a const object with a generator of non-const (found: `const T x; co_yield x;` in a
`Generator<T>` is an error, nothing is copied), and anything in an `AsyncGenerator<T &&>`. -/
theorem C82_yields_nothing (w : Which) (a : Arg) (o : Operand) :
    yields w a o = none ↔
      (w = .async ∧ a.ref = .rref) ∨ o.rel = .unrelated ∨ ((o.rel = .same ∨ o.rel = .derived) ∧ o.const = true ∧ a.const = false) := by
  obtain ⟨c, r⟩ := a
  obtain ⟨rel, cat, oc⟩ := o
  cases w <;> cases c <;> cases r <;> cases rel <;> cases cat <;> cases oc <;> simp [yields, overloads, bindL, bindR]

/-- `*it` is always an lvalue reference, through which the object can be assigned to unless the generator's type argument is const. -/
theorem C82_deref (a : Arg) : (derefType a).2 = .lref ∧ ((derefType a).1 = true ↔ a.const = true) := ⟨rfl, Iff.rfl⟩

example : yields .sync ⟨false, .value⟩ ⟨.same, .lvalue, false⟩ = some .object := rfl
example : yields .sync ⟨false, .value⟩ ⟨.same, .lvalue, true⟩ = none := rfl
example : yields .async ⟨false, .value⟩ ⟨.convertible, .lvalue, false⟩ = some .temporary := rfl

/-! ### What the references are good for -/

/-- An object can be accessed: it was made, and its lifetime is not over. -/
theorem mem_none_iff {s : State σ V} (hi : Inv s) (x : Nat) : s.mem x = none ↔ value x s.log = none ∨ Over x s.log := by
  by_cases ho : Over x s.log
  · simp [hi.over x ho, ho]
  · simp [hi.live x ho, ho]

theorem refers_eq {s : State σ V} (hi : Inv s) (r : Option Nat) : s.target r = refers s.log r := by
  cases r with
  | none => exact hi.cur
  | some i => simp [State.target, refers, hi.kept]

theorem refers_value {s : State σ V} (hi : Inv s) {r : Option Nat} {x : Nat} (h : refers s.log r = some x) : value x s.log ≠ none := by
  cases r with
  | none => exact hi.born _ (pointee_mem h) x rfl
  | some i =>
    have := List.mem_of_getElem? (show (keptObjs s.log)[i]? = some x from h)
    obtain ⟨e, he, hx⟩ := List.mem_filterMap.1 this
    exact hi.born e he x (by cases e <;> simp_all [keptObj, about])

theorem gone_step {s : State σ V} (h : s.ph = .destroyed → s.cur = none) (code : σ → Stmt σ V) (op : Op V) :
    (step code s op).ph = .destroyed → (step code s op).cur = none := by
  unfold step
  repeat' split
  all_goals first | exact h | (intro hp; first | (cases hp; done) | rfl | (simp_all; done))

theorem gone_exec (code : σ → Stmt σ V) (st : σ) (ops : List (Op V)) : (exec code st ops).ph = .destroyed → (exec code st ops).cur = none := by
  induction ops using snocInd with
  | nil => intro h; cases h
  | snoc ops op ih => rw [exec_snoc]; exact gone_step ih code op

/-- **When reading is undefined.** Reading through the iterator, or through a kept reference, is undefined behaviour if and only if the iterator
points to nothing, or the lifetime of the object is over. -/
theorem C82_get_ub_iff (code : σ → Stmt σ V) (st : σ) (ops : List (Op V)) (h : (exec code st ops).ub = none) (r : Option Nat) :
    (exec code st (ops ++ [.get r])).ub ≠ none ↔
      (r = none ∧ pointee (exec code st ops).log = none) ∨
      ∃ x, refers (exec code st ops).log r = some x ∧ Over x (exec code st ops).log := by
  rw [exec_snoc]
  have hi := inv_exec code st ops
  have hg := gone_exec code st ops
  generalize exec code st ops = s at *
  simp only [step, h]
  by_cases hd : r = none ∧ s.ph = .destroyed
  · rw [if_pos hd]
    have := hg hd.2
    rw [hi.cur] at this
    simp [hd.1, this]
  · rw [if_neg hd]
    obtain ⟨t, ht⟩ : ∃ t, s.target r = t := ⟨_, rfl⟩
    rw [ht]
    rw [refers_eq hi] at ht
    cases t with
    | none =>
      dsimp only
      by_cases hr : r = none
      · subst hr
        have : pointee s.log = none := ht
        simp [this]
      · rw [if_neg hr]; simp [hr, h, ht]
    | some x =>
      have hv := refers_value hi ht
      have hn : ¬ (r = none ∧ pointee s.log = none) := by
        rintro ⟨rfl, hp⟩
        have ht' : pointee s.log = some x := ht
        rw [hp] at ht'; cases ht'
      obtain ⟨m, hm⟩ : ∃ m, s.mem x = m := ⟨_, rfl⟩
      dsimp only
      rw [hm]
      cases m with
      | none =>
        have ho := ((mem_none_iff hi x).1 hm).resolve_left hv
        simp only [ne_eq, reduceCtorEq, not_false_eq_true, true_iff]
        exact .inr ⟨x, ht, ho⟩
      | some v =>
        have ho := not_over hi hm
        simp only [h, ne_eq, not_true_eq_false, false_iff]
        rintro (hx | ⟨y, hy, hyo⟩)
        · exact hn hx
        · rw [ht] at hy; cases hy; exact ho hyo

/-- **What is read.** Otherwise the value read is the current one of the object: the one last written to it, by the body, by the consumer or by
anyone else. -/
theorem C82_get (code : σ → Stmt σ V) (st : σ) (ops : List (Op V)) (h : (exec code st ops).ub = none) (r : Option Nat) (x : Nat)
    (hr : refers (exec code st ops).log r = some x) (ho : ¬ Over x (exec code st ops).log) :
    ∃ v, value x (exec code st ops).log = some v ∧ (exec code st (ops ++ [.get r])).log = (exec code st ops).log ++ [.got r x v] := by
  rw [exec_snoc]
  have hi := inv_exec code st ops
  have hg := gone_exec code st ops
  generalize exec code st ops = s at *
  have hm := hi.live x ho
  have hv := refers_value hi hr
  obtain ⟨v, hv'⟩ := Option.ne_none_iff_exists'.1 hv
  refine ⟨v, hv', ?_⟩
  have hd : ¬ (r = none ∧ s.ph = .destroyed) := by
    rintro ⟨rfl, hd⟩
    have := hg hd
    rw [hi.cur] at this
    have hr' : pointee s.log = some x := hr
    rw [this] at hr'; cases hr'
  simp only [step, h]
  rw [if_neg hd, refers_eq hi, hr]
  dsimp only
  rw [hm, hv']

/-- Assigning is undefined exactly when reading is, … -/
theorem C82_set_ub_iff (code : σ → Stmt σ V) (st : σ) (ops : List (Op V)) (r : Option Nat) (v : V) :
    (exec code st (ops ++ [.set r v])).ub = (exec code st (ops ++ [.get r])).ub := by
  rw [exec_snoc, exec_snoc]
  generalize exec code st ops = s at *
  unfold step
  split
  · rfl
  · dsimp only
    split
    · rfl
    · split
      · rfl
      · split <;> rfl

/-- … and otherwise it writes to the object itself. -/
theorem C82_set (code : σ → Stmt σ V) (st : σ) (ops : List (Op V)) (h : (exec code st ops).ub = none) (r : Option Nat) (v : V) (x : Nat)
    (hr : refers (exec code st ops).log r = some x) (ho : ¬ Over x (exec code st ops).log) :
    (exec code st (ops ++ [.set r v])).log = (exec code st ops).log ++ [.put r x v] := by
  obtain ⟨w, hw, hl⟩ := C82_get code st ops h r x hr ho
  rw [exec_snoc] at hl ⊢
  have hi := inv_exec code st ops
  generalize exec code st ops = s at *
  simp only [step, h] at hl ⊢
  by_cases hd : r = none ∧ s.ph = .destroyed
  · rw [if_pos hd] at hl; simp at hl
  · rw [if_neg hd, refers_eq hi, hr]
    dsimp only
    rw [hi.live x ho, hw]

/-- Keeping a reference (`auto &r = *it`) is fine whenever the iterator points to an object, and refers to that object. -/
theorem C82_keep (code : σ → Stmt σ V) (st : σ) (ops : List (Op V)) (h : (exec code st ops).ub = none) :
    match pointee (exec code st ops).log with
    | none => (exec code st (ops ++ [.keep])).ub ≠ none
    | some x => (exec code st (ops ++ [.keep])).ub = none ∧ (exec code st (ops ++ [.keep])).log = (exec code st ops).log ++ [.kept x] := by
  rw [exec_snoc]
  have hi := inv_exec code st ops
  have hg := gone_exec code st ops
  generalize exec code st ops = s at *
  simp only [step, h]
  rw [← hi.cur]
  by_cases hd : s.ph = .destroyed
  · rw [if_pos hd, hg hd]; simp
  · rw [if_neg hd]
    obtain ⟨c, hc⟩ : ∃ c, s.cur = c := ⟨_, rfl⟩
    rw [hc]
    cases c with
    | none => simp
    | some x => exact ⟨by first | rfl | exact h, rfl⟩

/-! ### The same over whole histories -/

/-- What every event of a history says about what was before it. -/
def Sound (pre : List (Ev V)) : Ev V → Prop
  | .made x _ | .tmp x _ | .outer x _ => value x pre = none
  | .stored x _ | .ended x => value x pre ≠ none ∧ ¬ Over x pre
  | .loaded x v => value x pre = some v ∧ ¬ Over x pre
  | .yielded x => value x pre ≠ none ∧ ¬ Over x pre
  | .kept x => pointee pre = some x
  | .got r x v => refers pre r = some x ∧ value x pre = some v ∧ ¬ Over x pre
  | .put r x _ => refers pre r = some x ∧ value x pre ≠ none ∧ ¬ Over x pre
  | .resumed | .finished | .destroyed => True

/-- The new events of a step, each with what was before it. -/
theorem sound_step {s : State σ V} (hi : Inv s) (code : σ → Stmt σ V) (op : Op V)
    (hl : ∀ pre e post, s.log = pre ++ e :: post → Sound pre e) :
    ∀ pre e post, (step code s op).log = pre ++ e :: post → Sound pre e := by
  have one : ∀ e', Sound s.log e' → ∀ pre e post, s.log ++ [e'] = pre ++ e :: post → Sound pre e := by
    intro e' he' pre e post h
    rcases List.eq_nil_or_concat post with rfl | ⟨q, z, rfl⟩
    · obtain ⟨h1, h2⟩ := List.append_inj' h rfl
      simp at h2; subst h2 h1; exact he'
    · rw [show pre ++ e :: q.concat z = (pre ++ e :: q) ++ [z] by simp] at h
      obtain ⟨h1, h2⟩ := List.append_inj' h rfl
      exact hl _ _ _ h1
  have two : ∀ e' f', Sound s.log e' → Sound (s.log ++ [e']) f' → ∀ pre e post, s.log ++ [e', f'] = pre ++ e :: post → Sound pre e := by
    intro e' f' he' hf' pre e post h
    rw [show s.log ++ [e', f'] = (s.log ++ [e']) ++ [f'] by simp] at h
    rcases List.eq_nil_or_concat post with rfl | ⟨q, z, rfl⟩
    · obtain ⟨h1, h2⟩ := List.append_inj' h rfl
      simp at h2; subst h2 h1; exact hf'
    · rw [show pre ++ e :: q.concat z = (pre ++ e :: q) ++ [z] by simp] at h
      obtain ⟨h1, h2⟩ := List.append_inj' h rfl
      exact one e' he' _ _ _ h1
  have hn : value s.n s.log = none := value_lt hi _ (Nat.le_refl _)
  have hnov : ¬ Over s.n s.log := fun ho => Nat.lt_irrefl _ (over_lt hi ho)
  have hm : ∀ x v, s.mem x = some v → value x s.log = some v ∧ ¬ Over x s.log := by
    intro x v h; exact ⟨by rw [← hi.live x (not_over hi h), h], not_over hi h⟩
  have hm' : ∀ x v, s.mem x = some v → value x s.log ≠ none ∧ ¬ Over x s.log := by
    intro x v h; exact ⟨by rw [(hm x v h).1]; simp, not_over hi h⟩
  unfold step
  split
  · exact hl
  cases op with
  | resume =>
    dsimp only
    repeat' split
    all_goals first | exact hl | exact one _ trivial
  | body =>
    dsimp only
    split
    · rename_i hp
      have hr := hi.run (.inr (.inl hp))
      split
      · exact one _ hn
      · split
        · rename_i h; exact one _ (hm' _ _ h)
        · exact hl
      · split
        · rename_i h; exact one _ (hm _ _ h)
        · exact hl
      · split
        · rename_i h _; exact one _ (hm' _ _ h)
        · exact hl
      · split
        · rename_i h; exact one _ (hm' _ _ h)
        · exact hl
      · refine two _ _ hn ⟨?_, ?_⟩
        · rw [value_snoc]; simp [writes]
        · rw [over_snoc]; simp [hnov, hr.1, hr.2]
      · exact hl
      · exact one _ trivial
    · exact hl
  | wake =>
    dsimp only
    split <;> exact hl
  | keep =>
    dsimp only
    split
    · exact hl
    · split
      · exact hl
      · rename_i x hc; exact one _ (by rw [hi.cur] at hc; exact hc)
  | get r =>
    dsimp only
    split
    · exact hl
    · split
      · split <;> exact hl
      · rename_i x ht
        split
        · rename_i v h; exact one _ ⟨by rw [← refers_eq hi]; exact ht, hm _ _ h⟩
        · exact hl
  | set r w =>
    dsimp only
    split
    · exact hl
    · split
      · split <;> exact hl
      · rename_i x ht
        split
        · rename_i v h; exact one _ ⟨by rw [← refers_eq hi]; exact ht, hm' _ _ h⟩
        · exact hl
  | outer v => exact one _ hn
  | outerSet x v =>
    dsimp only
    split
    · rename_i h _; exact one _ (hm' _ _ h)
    · exact hl
  | outerEnd x =>
    dsimp only
    split
    · rename_i h _; exact one _ (hm' _ _ h)
    · exact hl
  | destroy =>
    dsimp only
    repeat' split
    all_goals first | exact hl | exact one _ trivial

/-- **Every read, in every history.** Whatever the consumer reads through an iterator or a kept reference, and whatever the body reads, is the
current value of the object in question, which exists; an iterator refers to the object yielded last, a kept reference to the one that was yielded
last when it was taken. -/
theorem C82_sound (code : σ → Stmt σ V) (st : σ) (ops : List (Op V)) (pre : List (Ev V)) (e : Ev V) (post : List (Ev V))
    (h : (exec code st ops).log = pre ++ e :: post) : Sound pre e := by
  induction ops using snocInd generalizing pre e post with
  | nil => simp [exec] at h
  | snoc ops op ih => rw [exec_snoc] at h; exact sound_step (inv_exec code st ops) code op ih pre e post h

/-- **The body sees what the consumer assigns**, and the other way round: between a write to an object and a read of it, without another write
to it between, the value is the one written. -/
theorem C82_written_is_read (code : σ → Stmt σ V) (st : σ) (ops : List (Op V)) (pre mid post : List (Ev V)) (e : Ev V) (x : Nat) (v : V)
    (he : writes x e = some v) (hmid : ∀ f ∈ mid, writes x f = none) :
    (∀ r w, (exec code st ops).log = pre ++ e :: mid ++ .got r x w :: post → w = v) ∧
    (∀ w, (exec code st ops).log = pre ++ e :: mid ++ .loaded x w :: post → w = v) := by
  have hv : value x (pre ++ e :: mid) = some v := by
    have : mid.filterMap (writes x) = [] := by
      rw [List.filterMap_eq_nil_iff]; exact hmid
    simp [value, List.filterMap_append, List.filterMap_cons, he, this]
  constructor
  · intro r w h
    have := (C82_sound code st ops _ _ _ h).2.1
    rw [hv] at this; exact (Option.some.inj this).symm
  · intro w h
    have := (C82_sound code st ops _ _ _ h).1
    rw [hv] at this; exact (Option.some.inj this).symm

/-! ### At a co_yield -/

/-- The statement the body is about to run is `co_yield` of an object: it is undefined behaviour if and only if the object is not there, and
otherwise this very object is what iterators point to from now on. -/
theorem C82_co_yield (code : σ → Stmt σ V) (st : σ) (ops : List (Op V)) (h : (exec code st ops).ub = none) (hp : (exec code st ops).ph = .running)
    (x : Nat) (k : σ) (hc : code (exec code st ops).st = .yield x k) :
    ((exec code st (ops ++ [.body])).ub ≠ none ↔ value x (exec code st ops).log = none ∨ Over x (exec code st ops).log) ∧
    ((exec code st (ops ++ [.body])).ub = none →
      (exec code st (ops ++ [.body])).log = (exec code st ops).log ++ [.yielded x] ∧
      pointee (exec code st (ops ++ [.body])).log = some x ∧ atYield (exec code st (ops ++ [.body])).log = true) := by
  rw [exec_snoc]
  have hi := inv_exec code st ops
  generalize exec code st ops = s at *
  rw [← mem_none_iff hi]
  simp only [step, h, hp, hc]
  obtain ⟨m, hm⟩ : ∃ m, s.mem x = m := ⟨_, rfl⟩
  rw [hm]
  cases m with
  | none => simp
  | some v =>
    refine ⟨by simp, fun _ => ⟨rfl, ?_, ?_⟩⟩
    · rw [pointee_snoc]; rfl
    · rw [atYield_snoc]; rfl

/-- `co_yield` of a temporary: a new object with the value, which iterators point to from now on. -/
theorem C82_co_yield_temporary (code : σ → Stmt σ V) (st : σ) (ops : List (Op V)) (h : (exec code st ops).ub = none) (hp : (exec code st ops).ph = .running)
    (v : V) (k : σ) (hc : code (exec code st ops).st = .yieldTmp v k) :
    (exec code st (ops ++ [.body])).ub = none ∧
    ∃ x, value x (exec code st ops).log = none ∧ (exec code st (ops ++ [.body])).log = (exec code st ops).log ++ [.tmp x v, .yielded x] ∧
      pointee (exec code st (ops ++ [.body])).log = some x ∧ atYield (exec code st (ops ++ [.body])).log = true := by
  rw [exec_snoc]
  have hi := inv_exec code st ops
  generalize exec code st ops = s at *
  simp only [step, h, hp, hc]
  refine ⟨by first | rfl | trivial, s.n, value_lt hi _ (Nat.le_refl _), rfl, ?_, ?_⟩
  · rw [show s.log ++ [Ev.tmp s.n v, .yielded s.n] = (s.log ++ [.tmp s.n v]) ++ [.yielded s.n] by simp, pointee_snoc]; rfl
  · rw [show s.log ++ [Ev.tmp s.n v, .yielded s.n] = (s.log ++ [.tmp s.n v]) ++ [.yielded s.n] by simp, atYield_snoc]; rfl

/-- What is known while the generator is suspended at a co_yield. -/
structure Parked (s : State σ V) : Prop where
  some' : atYield s.log = true → ∃ x, pointee s.log = some x
  own' : atYield s.log = true → ∀ x, pointee s.log = some x → Own x s.log → ¬ Over x s.log

theorem parked_step {s : State σ V} (hi : Inv s) (h : Parked s) (code : σ → Stmt σ V) (op : Op V) : Parked (step code s op) := by
  have quiet' : ∀ e, quiet e = true → Parked { s with log := s.log ++ [e] } := by
    intro e hq
    have hp : pointee (s.log ++ [e]) = pointee s.log := by rw [pointee_snoc]; cases e <;> first | rfl | cases hq
    have ht : atYield (s.log ++ [e]) = atYield s.log := by rw [atYield_snoc]; cases e <;> first | rfl | cases hq
    refine ⟨?_, ?_⟩ <;> dsimp only <;> rw [hp, ht]
    · exact h.some'
    · intro h1 x h2 h3; rw [quiet_own hq] at h3; rw [quiet_over hq]; exact h.own' h1 x h2 h3
  have off : ∀ e, turn e = some false → atYield (s.log ++ [e]) = false := by
    intro e he; rw [atYield_snoc, he]; rfl
  have offP : ∀ (s' : State σ V) e, s'.log = s.log ++ [e] → turn e = some false → Parked s' := by
    intro s' e hl he
    refine ⟨?_, ?_⟩ <;> intro h1 <;> rw [hl, off e he] at h1 <;> cases h1
  have quietP : ∀ (s' : State σ V) e, s'.log = s.log ++ [e] → quiet e = true → Parked s' := by
    intro s' e hl he
    have := quiet' e he
    exact ⟨by rw [hl]; exact this.some', by rw [hl]; exact this.own'⟩
  have sameP : ∀ (s' : State σ V), s'.log = s.log → Parked s' := by
    intro s' hl; exact ⟨by rw [hl]; exact h.some', by rw [hl]; exact h.own'⟩
  have nyl : s.ph ≠ .yielded → atYield s.log = false := by
    intro hp; have := hi.yld; revert this; cases atYield s.log <;> simp [hp]
  unfold step
  split
  · exact h
  cases op with
  | resume =>
    dsimp only
    repeat' split
    all_goals first | exact offP _ _ rfl rfl | exact sameP _ rfl
  | body =>
    dsimp only
    split
    · rename_i hp
      have hr := hi.run (.inr (.inl hp))
      have hny := nyl (by rw [hp]; simp)
      have onP : ∀ (s' : State σ V) e, s'.log = s.log ++ [e] → turn e = none → Parked s' := by
        intro s' e hl he
        have : atYield s'.log = false := by rw [hl, atYield_snoc, he]; exact hny
        refine ⟨?_, ?_⟩ <;> intro h1 <;> rw [this] at h1 <;> cases h1
      split
      · exact onP _ _ rfl rfl
      · split
        · exact onP _ _ rfl rfl
        · exact sameP _ rfl
      · split
        · exact onP _ _ rfl rfl
        · exact sameP _ rfl
      · split
        · exact onP _ _ rfl rfl
        · exact sameP _ rfl
      · rename_i x k hcode
        split
        · rename_i v hm
          have hpt : pointee (s.log ++ [.yielded x]) = some x := by rw [pointee_snoc]; rfl
          refine ⟨fun _ => ⟨x, hpt⟩, fun _ y hy _ => ?_⟩
          dsimp only at hy ⊢
          rw [hpt] at hy; cases hy
          rw [over_snoc]; simp; exact not_over hi hm
        · exact sameP _ rfl
      · rename_i v k hcode
        have hl : s.log ++ [Ev.tmp s.n v, .yielded s.n] = (s.log ++ [.tmp s.n v]) ++ [.yielded s.n] := by simp
        have hn : ¬ Over s.n s.log := fun ho => Nat.lt_irrefl _ (over_lt hi ho)
        have hpt : pointee (s.log ++ [.tmp s.n v, .yielded s.n]) = some s.n := by rw [hl, pointee_snoc]; rfl
        refine ⟨fun _ => ⟨s.n, hpt⟩, fun _ y hy _ => ?_⟩
        dsimp only at hy ⊢
        rw [hpt] at hy; cases hy
        rw [hl, over_snoc]; simp; rw [over_snoc]; simp [hn, hr.1, hr.2]
      · exact sameP _ rfl
      · exact offP _ _ rfl rfl
    · exact h
  | wake =>
    dsimp only
    split
    · exact sameP _ rfl
    · exact h
  | keep =>
    dsimp only
    repeat' split
    all_goals first | exact quietP _ _ rfl rfl | exact sameP _ rfl
  | get r =>
    dsimp only
    repeat' split
    all_goals first | exact quietP _ _ rfl rfl | exact sameP _ rfl
  | set r w =>
    dsimp only
    repeat' split
    all_goals first | exact quietP _ _ rfl rfl | exact sameP _ rfl
  | outer v =>
    have hp : pointee (s.log ++ [.outer s.n v]) = pointee s.log := by rw [pointee_snoc]; rfl
    have ht : atYield (s.log ++ [.outer s.n v]) = atYield s.log := by rw [atYield_snoc]; rfl
    refine ⟨?_, ?_⟩ <;> dsimp only <;> rw [hp, ht]
    · exact h.some'
    · intro h1 x h2 h3
      rw [own_snoc] at h3; simp at h3
      rw [over_snoc]; simp; exact h.own' h1 x h2 h3
  | outerSet x v =>
    dsimp only
    repeat' split
    all_goals first | exact quietP _ _ rfl rfl | exact sameP _ rfl
  | outerEnd x =>
    dsimp only
    split
    · rename_i hm ho
      have hp : pointee (s.log ++ [.ended x]) = pointee s.log := by rw [pointee_snoc]; rfl
      have ht : atYield (s.log ++ [.ended x]) = atYield s.log := by rw [atYield_snoc]; rfl
      refine ⟨?_, ?_⟩ <;> dsimp only <;> rw [hp, ht]
      · exact h.some'
      · intro h1 y h2 h3
        rw [own_snoc] at h3; simp at h3
        rw [over_snoc]; simp
        refine ⟨h.own' h1 y h2 h3, ?_⟩
        rintro rfl
        rw [(hi.own x).2 h3] at ho; cases ho
    · exact sameP _ rfl
  | destroy =>
    dsimp only
    repeat' split
    all_goals first | exact offP _ _ rfl rfl | exact sameP _ rfl

theorem parked_exec (code : σ → Stmt σ V) (st : σ) (ops : List (Op V)) : Parked (exec code st ops) := by
  induction ops using snocInd with
  | nil => refine ⟨?_, ?_⟩ <;> simp [exec, atYield]
  | snoc ops op ih => rw [exec_snoc]; exact parked_step (inv_exec code st ops) ih code op

/-- **While the generator is suspended at a co_yield, `*it` is good** — if what is yielded is a variable of the body or a temporary. If it is
somebody else's object, that one must still exist, and this is the only condition. -/
theorem C82_at_yield (code : σ → Stmt σ V) (st : σ) (ops : List (Op V)) (h : (exec code st ops).ub = none)
    (hy : atYield (exec code st ops).log = true) :
    ∃ x, pointee (exec code st ops).log = some x ∧
      ((exec code st (ops ++ [.get none])).ub ≠ none ↔ ¬ Own x (exec code st ops).log ∧ .ended x ∈ (exec code st ops).log) := by
  have hP := parked_exec code st ops
  obtain ⟨x, hx⟩ := hP.some' hy
  refine ⟨x, hx, ?_⟩
  rw [C82_get_ub_iff code st ops h none]
  have hi := inv_exec code st ops
  constructor
  · rintro (⟨_, h1⟩ | ⟨y, h1, h2⟩)
    · rw [hx] at h1; cases h1
    · have h1 : pointee (exec code st ops).log = some y := h1
      rw [hx] at h1; cases h1
      have hno : ¬ Own x (exec code st ops).log := fun ho => hP.own' hy x hx ho h2
      refine ⟨hno, ?_⟩
      rcases h2 with h2 | ⟨ho, _⟩ | ⟨p, v, q, e, _⟩
      · exact h2
      · exact absurd ho hno
      · exact absurd ⟨v, .inr (by rw [e]; simp)⟩ hno
  · rintro ⟨_, h2⟩
    exact .inr ⟨x, hx, .inl h2⟩

/-! ### Kept references -/

/-- A kept reference to a temporary is dangling as soon as the generator is resumed. -/
theorem C82_temporary_dangles (code : σ → Stmt σ V) (st : σ) (ops : List (Op V)) (h : (exec code st ops).ub = none) (pre post : List (Ev V)) (x : Nat) (v : V)
    (i : Nat) (hl : (exec code st ops).log = pre ++ .tmp x v :: post) (hr : .resumed ∈ post)
    (hk : (keptObjs (exec code st ops).log)[i]? = some x) : (exec code st (ops ++ [.get (some i)])).ub ≠ none := by
  rw [C82_get_ub_iff code st ops h]
  exact .inr ⟨x, hk, .inr (.inr ⟨pre, v, post, hl, hr⟩)⟩

/-- A kept reference to a variable of the body is good until the variable's scope ends, the generator finishes or is destroyed, however often it
is resumed. -/
theorem C82_variable_stays (code : σ → Stmt σ V) (st : σ) (ops : List (Op V)) (h : (exec code st ops).ub = none) (x : Nat) (v : V) (i : Nat)
    (hm : .made x v ∈ (exec code st ops).log) (hk : (keptObjs (exec code st ops).log)[i]? = some x) :
    (exec code st (ops ++ [.get (some i)])).ub ≠ none ↔
      .ended x ∈ (exec code st ops).log ∨ .finished ∈ (exec code st ops).log ∨ .destroyed ∈ (exec code st ops).log := by
  rw [C82_get_ub_iff code st ops h]
  have hs := C82_sound code st ops
  have hno : ∀ p w q, (exec code st ops).log ≠ p ++ .tmp x w :: q := by
    intro p w q hl
    have h1 : value x p = none := hs _ _ _ hl
    obtain ⟨p', q', hl'⟩ := List.append_of_mem hm
    have h2 : value x p' = none := hs _ _ _ hl'
    have key : ∀ (a b : List (Ev V)) (e f : Ev V) (c d : List (Ev V)), a ++ e :: c = b ++ f :: d → (writes x e ≠ none) → (writes x f ≠ none) →
        value x a = none → value x b = none → e = f := by
      intro a b e f c d hab he hf ha hb
      rcases Nat.lt_trichotomy a.length b.length with hlt | heq | hgt
      · exfalso
        have : e ∈ b := by
          have := List.getElem?_append_right (l₁ := a) (l₂ := e :: c) (i := a.length) (Nat.le_refl _)
          rw [hab, List.getElem?_append_left hlt] at this
          exact List.mem_of_getElem? (a := e) (i := a.length) (by simpa using this)
        unfold value at hb
        rw [List.getLast?_eq_none_iff, List.filterMap_eq_nil_iff] at hb
        exact he (hb e this)
      · have := List.append_inj hab heq
        simp at this; exact this.2.1
      · exfalso
        have : f ∈ a := by
          have := List.getElem?_append_right (l₁ := b) (l₂ := f :: d) (i := b.length) (Nat.le_refl _)
          rw [← hab, List.getElem?_append_left hgt] at this
          exact List.mem_of_getElem? (a := f) (i := b.length) (by simpa using this)
        unfold value at ha
        rw [List.getLast?_eq_none_iff, List.filterMap_eq_nil_iff] at ha
        exact hf (ha f this)
    have := key p' p (.made x v) (.tmp x w) q' q (by rw [← hl', hl]) (by simp [writes]) (by simp [writes]) h2 h1
    cases this
  constructor
  · rintro (⟨h1, _⟩ | ⟨y, h1, h2⟩)
    · cases h1
    · have h1 : (keptObjs (exec code st ops).log)[i]? = some y := h1
      rw [hk] at h1; cases h1
      rcases h2 with h2 | ⟨_, h2⟩ | ⟨p, w, q, e, _⟩
      · exact .inl h2
      · exact .inr h2
      · exact absurd e (hno p w q)
  · rintro (h2 | h2)
    · exact .inr ⟨x, hk, .inl h2⟩
    · exact .inr ⟨x, hk, .inr (.inl ⟨⟨v, .inl hm⟩, h2⟩)⟩

/-- A kept reference to somebody else's object is good until that object ends, whatever becomes of the generator. -/
theorem C82_outer_stays (code : σ → Stmt σ V) (st : σ) (ops : List (Op V)) (h : (exec code st ops).ub = none) (x : Nat) (v : V) (i : Nat)
    (hm : .outer x v ∈ (exec code st ops).log) (hk : (keptObjs (exec code st ops).log)[i]? = some x) :
    (exec code st (ops ++ [.get (some i)])).ub ≠ none ↔ .ended x ∈ (exec code st ops).log := by
  rw [C82_get_ub_iff code st ops h]
  have hno : ¬ Own x (exec code st ops).log := (inv_exec code st ops).ext x ⟨v, hm⟩
  constructor
  · rintro (⟨h1, _⟩ | ⟨y, h1, h2⟩)
    · cases h1
    · have h1 : (keptObjs (exec code st ops).log)[i]? = some y := h1
      rw [hk] at h1; cases h1
      rcases h2 with h2 | ⟨ho, _⟩ | ⟨p, w, q, e, _⟩
      · exact h2
      · exact absurd ho hno
      · exact absurd ⟨w, .inr (by rw [e]; simp)⟩ hno
  · intro h2; exact .inr ⟨x, hk, .inl h2⟩

/-! ### All undefined behaviour -/

/-- The object a statement of the body accesses. -/
def accesses : Stmt σ V → Option Nat
  | .assign x _ _ | .load x _ | .leave x _ | .yield x _ => some x
  | _ => none

/-- The statement ends the scope of `x`. -/
def leaves : Stmt σ V → Option Nat
  | .leave x _ => some x
  | _ => none

/-- A step of the body is undefined if and only if it accesses an object that is not there (or ends the scope of one that is not its own). -/
theorem C82_body_ub_iff (code : σ → Stmt σ V) (st : σ) (ops : List (Op V)) (h : (exec code st ops).ub = none) :
    (exec code st (ops ++ [.body])).ub ≠ none ↔ (exec code st ops).ph = .running ∧
      ((∃ x, accesses (code (exec code st ops).st) = some x ∧ (value x (exec code st ops).log = none ∨ Over x (exec code st ops).log)) ∨
       ∃ x, leaves (code (exec code st ops).st) = some x ∧ ¬ Own x (exec code st ops).log) := by
  rw [exec_snoc]
  have hi := inv_exec code st ops
  generalize exec code st ops = s at *
  simp only [← mem_none_iff hi, ← hi.own]
  simp only [step, h]
  split
  · rename_i hp
    simp only [hp, true_and]
    obtain ⟨c, hc⟩ : ∃ c, code s.st = c := ⟨_, rfl⟩
    rw [hc]
    cases c with
    | decl v k => simp [accesses, leaves]
    | assign x v k => simp only [accesses, leaves]; cases hm : s.mem x <;> simp [hm]
    | load x k => simp only [accesses, leaves]; cases hm : s.mem x <;> simp [hm]
    | leave x k => simp only [accesses, leaves]; cases hm : s.mem x <;> cases ho : s.own x <;> simp [hm, ho]
    | yield x k => simp only [accesses, leaves]; cases hm : s.mem x <;> simp [hm]
    | yieldTmp v k => simp [accesses, leaves]
    | await k => simp [accesses, leaves]
    | ret => simp [accesses, leaves]
  · rename_i hp
    simp [h]
    exact fun h' => (hp h').elim

/-! ### Examples -/

/-- A generator that yields a variable, reads it back, and yields a temporary: `int x = 1; co_yield x; co_yield x + 10; co_await …; co_yield x;`. -/
def sample : Nat × Nat → Stmt (Nat × Nat) Nat
  | (0, _) => .decl 1 (fun x => (1, x))
  | (1, x) => .yield x (2, x)
  | (2, x) => .load x (fun v => (3, v * 100 + x))
  | (3, y) => .yieldTmp (y / 100 + 10) (4, y % 100)
  | (4, x) => .await (5, x)
  | (5, x) => .yield x (6, x)
  | _ => .ret

/-- Found while modelling: a reference kept to a yielded temporary is dangling after the next `++it`, one to a yielded variable is not. -/
theorem C82_found_temporary :
    (exec sample (0, 0) [.resume, .body, .body, .keep, .set none 7, .resume, .body, .body, .get (some 0), .get none, .keep, .resume, .get (some 0)]).ub = none ∧
    (exec sample (0, 0) [.resume, .body, .body, .keep, .set none 7, .resume, .body, .body, .get (some 0), .get none, .keep, .resume, .get (some 1)]).ub = some .dead := by
  decide

/-- Found while modelling: while an asynchronous generator, resumed by `++it`, awaits something, another copy of the iterator still points to the
object yielded before; if that was a temporary, dereferencing it is undefined. -/
theorem C82_found_async :
    (exec sample (0, 0) [.resume, .body, .body, .resume, .body, .body, .resume, .body, .get none]).ub = some .dead ∧
    (exec sample (0, 0) [.resume, .body, .body, .resume, .body, .body, .resume, .body, .get none]).ph = .awaiting ∧
    (exec sample (0, 0) [.resume, .body, .body, .resume, .get none]).ub = none := by
  decide

/-- The consumer assigns 7 to the yielded variable, and the body goes on with 7: the second value is 17. -/
example : (exec sample (0, 0) [.resume, .body, .body, .set none 7, .resume, .body, .body, .get none]).log =
    [.resumed, .made 0 1, .yielded 0, .put none 0 7, .resumed, .loaded 0 7, .tmp 1 17, .yielded 1, .got none 1 17] := by decide

/-- A generator that yields somebody else's object. -/
def lender : Nat → Stmt Nat Nat
  | 0 => .yield 0 1
  | _ => .ret

example : (exec lender 0 [.outer 5, .resume, .body, .keep, .resume, .body, .destroy, .get (some 0)]).ub = none := by decide
example : (exec lender 0 [.outer 5, .resume, .body, .outerEnd 0, .get none]).ub = some .dead := by decide

end QCoro.Yield
