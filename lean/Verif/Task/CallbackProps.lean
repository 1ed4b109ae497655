import Verif.Task.Callback
/-
C71: what the callbacks of `then` and `connect` are called with.
-/
namespace QCoro.Callback

variable {Ty : Type}

/-- The callable can be called with these arguments, however it is named. -/
def Callable.takes (f : Callable Ty) (args : List (Arg Ty)) : Prop := (f.inv .lvalue args).isSome

instance (f : Callable Ty) (args : List (Arg Ty)) : Decidable (f.takes args) := inferInstanceAs (Decidable (_ = true))

/-- An ordinary callable: how it is named does not matter (functions, lambdas that are not `mutable`, …). -/
def Callable.Ordinary (f : Callable Ty) : Prop := ∀ c args, f.inv c args = f.inv .lvalue args

/-- Every type converts to itself. -/
def World.Refl (w : World Ty) : Prop := ∀ t, w.conv t t = true

/-- The type of task `then` returns for a call that returns `R`, on a LazyTask (`lazy`) or a Task: the callback's own task, or a task
of the same kind with the callback's result. Specification. -/
inductive IsTaskOf (lazy : Bool) : Ret Ty → Option Ty → Bool → Prop
  | void : IsTaskOf lazy .void none lazy
  | plain (t) : IsTaskOf lazy (.plain t) (some t) lazy
  | task (l r) : IsTaskOf lazy (.task l r) r l

/-- `Fits w R a`: what a call of type `a` produces can be returned by a task declared for `R`. Specification. -/
inductive Fits (w : World Ty) : Ret Ty → Ret Ty → Prop
  | void : Fits w .void .void
  | plain (r a) (h : w.conv a r = true) : Fits w (.plain r) (.plain a)
  | taskVoid (l l') : Fits w (.task l none) (.task l' none)
  | task (l l' r a) (h : w.conv a r = true) : Fits w (.task l (some r)) (.task l' (some a))

theorem fits_iff (w : World Ty) (R a : Ret Ty) : coReturnOk w R a = true ↔ Fits w R a := by
  constructor
  · intro h
    cases R with
    | void => cases a <;> simp [coReturnOk, storable, Ret.payload] at h; exact .void
    | plain r => cases a <;> simp [coReturnOk, storable, Ret.payload] at h; exact .plain _ _ h
    | task l r =>
      cases a with
      | void => simp [coReturnOk] at h
      | plain a => simp [coReturnOk] at h
      | task l' a =>
        cases r <;> cases a <;> simp [coReturnOk, storable] at h
        · exact .taskVoid _ _
        · exact .task _ _ _ _ h
  · intro h
    cases h <;> simp_all [coReturnOk, storable, Ret.payload]

theorem compiled_iff (w : World Ty) (lazy : Bool) (args : List (Arg Ty)) (R : Ret Ty) (k : Compiled Ty) :
    (if handlerOk w R then some (⟨args, R.payload, R.kind lazy⟩ : Compiled Ty) else none) = some k ↔
      k.calledWith = args ∧ IsTaskOf lazy R k.result k.lazy ∧ ∀ t, k.result = some t → w.dflt t = true := by
  obtain ⟨ca, r, l⟩ := k
  have key : IsTaskOf lazy R r l ↔ R.payload = r ∧ R.kind lazy = l := by
    constructor
    · intro h; cases h <;> exact ⟨rfl, rfl⟩
    · rintro ⟨rfl, rfl⟩
      cases R with
      | void => exact .void
      | plain t => exact .plain t
      | task l r => exact .task l r
  dsimp only
  rw [key]
  have hh : handlerOk w R = true ↔ ∀ t, R.payload = some t → w.dflt t = true := by
    unfold handlerOk
    cases R.payload <;> simp
  by_cases h : handlerOk w R = true
  · rw [if_pos h]
    simp only [Option.some.injEq, Compiled.mk.injEq]
    constructor
    · rintro ⟨rfl, rfl, rfl⟩
      exact ⟨rfl, ⟨rfl, rfl⟩, hh.1 h⟩
    · rintro ⟨rfl, ⟨rfl, rfl⟩, _⟩
      exact ⟨rfl, rfl, rfl⟩
  · rw [if_neg h]
    refine ⟨fun h' => (by cases h'), fun ⟨_, ⟨h1, _⟩, h2⟩ => absurd (hh.2 ?_) h⟩
    subst h1; exact h2

theorem coReturnOk_self (w : World Ty) (hw : w.Refl) (R : Ret Ty) : coReturnOk w R R = true := by
  cases R with
  | void => rfl
  | plain t => simp [coReturnOk, Ret.payload, storable, hw t]
  | task l r => cases r <;> simp [coReturnOk, storable, hw _]

/-- C71. `then` accepts exactly the callables that can be called without arguments or with the result of the task; it compiles only
those. -/
theorem C71_then_accepts (w : World Ty) (f : Callable Ty) (hf : f.Ordinary) (c lazy T) :
    (thenAccepts f c T = true ↔ f.takes [] ∨ f.takes (valueArg T)) ∧
    ((compileThen w f c lazy T).isSome → f.takes [] ∨ f.takes (valueArg T)) := by
  have h : thenAccepts f c T = true ↔ f.takes [] ∨ f.takes (valueArg T) := by
    unfold thenAccepts Callable.takes
    rw [hf c, hf c]
    cases T <;> simp [valueArg]
  refine ⟨h, fun hc => h.1 ?_⟩
  unfold compileThen at hc
  split at hc
  · assumption
  · cases hc

/-- C71. The callback gets the result of the task exactly if it can take it, and is called without arguments otherwise. -/
theorem C71_then_call (w : World Ty) (f : Callable Ty) (c lazy T k) (h : compileThen w f c lazy T = some k) :
    k.calledWith = (if f.takes (valueArg T) then valueArg T else []) ∧ f.takes k.calledWith := by
  unfold compileThen at h
  split at h
  · split at h
    · next R args a hR ha =>
      split at h
      · cases h
        unfold invokeCb at ha
        dsimp only
        split at ha
        · next ht =>
          rw [Option.map_eq_some_iff] at ha
          obtain ⟨x, _, hx⟩ := ha
          cases hx
          rw [if_pos (show f.takes (valueArg T) from ht)]
          exact ⟨rfl, ht⟩
        · next ht =>
          rw [Option.map_eq_some_iff] at ha
          obtain ⟨x, hx1, hx⟩ := ha
          cases hx
          rw [if_neg (show ¬ f.takes (valueArg T) from ht)]
          exact ⟨rfl, by simp [Callable.takes, hx1]⟩
      · cases h
    · cases h
  · cases h

/-- C71. A callable that can be called in one way only (always so for a `Task<void>`): the new task is of the type the call returns –
the callback's own task type if it returns one –, and `then` compiles exactly if that type can be default constructed (also
without an error callback). -/
theorem C71_then_compiles (w : World Ty) (hw : w.Refl) (f : Callable Ty) (hf : f.Ordinary) (c lazy T args R)
    (ha : args = [] ∨ args = valueArg T) (h : f.inv .lvalue args = some R)
    (hone : ∀ args', args' = [] ∨ args' = valueArg T → f.takes args' → args' = args) (k) :
    compileThen w f c lazy T = some k ↔
      k.calledWith = args ∧ IsTaskOf lazy R k.result k.lazy ∧ ∀ t, k.result = some t → w.dflt t = true := by
  rw [← compiled_iff]
  have hacc : thenAccepts f c T = true := by
    refine (C71_then_accepts w f hf c lazy T).1.2 ?_
    rcases ha with rfl | rfl
    · exact .inl (by simp [Callable.takes, h])
    · exact .inr (by simp [Callable.takes, h])
  have hR : resultType f c T = some R := by
    unfold resultType
    cases T with
    | none =>
      rw [hf c]
      rcases ha with rfl | rfl <;> exact h
    | some t =>
      dsimp only
      rw [hf c, hf c [.value t]]
      by_cases h0 : (f.inv .lvalue []).isSome
      · have := hone [] (.inl rfl) h0
        subst this
        rw [if_pos h0]; exact h
      · rw [if_neg h0]
        rcases ha with rfl | rfl
        · simp [h] at h0
        · exact h
  have hI : invokeCb f T = some (args, R) := by
    unfold invokeCb
    by_cases h0 : (f.inv .lvalue (valueArg T)).isSome
    · have := hone _ (.inr rfl) h0
      rw [if_pos h0, this, h]; rfl
    · rw [if_neg h0]
      rcases ha with rfl | rfl
      · rw [h]; rfl
      · simp [h] at h0
  unfold compileThen
  rw [if_pos hacc, hR, hI]
  simp [coReturnOk_self w hw R]

/-- C71. A callable that can be called both ways is called with the result, but the new task has the type of the call without
arguments: `then` compiles exactly if the one converts to the other (and that can be default constructed). -/
theorem C71_then_overloaded (w : World Ty) (f : Callable Ty) (hf : f.Ordinary) (c lazy t R a)
    (h0 : f.inv .lvalue [] = some R) (h1 : f.inv .lvalue [.value t] = some a) (k) :
    compileThen w f c lazy (some t) = some k ↔
      k.calledWith = [.value t] ∧ Fits w R a ∧ IsTaskOf lazy R k.result k.lazy ∧ ∀ t, k.result = some t → w.dflt t = true := by
  have hacc : thenAccepts f c (some t) = true := (C71_then_accepts w f hf c lazy (some t)).1.2 (.inl (by simp [Callable.takes, h0]))
  have hR : resultType f c (some t) = some R := by simp [resultType, hf c, h0]
  have hI : invokeCb f (some t) = some ([.value t], a) := by simp [invokeCb, valueArg, h1]
  have hc := compiled_iff w lazy [.value t] R k
  unfold compileThen
  rw [if_pos hacc, hR, hI]
  dsimp only
  by_cases hf' : coReturnOk w R a = true
  · have := (fits_iff w R a).1 hf'
    simp only [hf', Bool.true_and, this, true_and]
    exact hc
  · have : ¬ Fits w R a := fun h => hf' ((fits_iff w R a).2 h)
    simp [hf', this]

/-- C71. A callable that can only be called as an rvalue is accepted by the constraint and is an error inside the library. -/
theorem C71_then_rvalue_only (w : World Ty) (f : Callable Ty) (lazy T) (h0 : (f.inv .rvalue []).isSome) (h1 : ¬ f.takes [])
    (h2 : ¬ f.takes (valueArg T)) : thenAccepts f .rvalue T = true ∧ compileThen w f .rvalue lazy T = none := by
  have h : thenAccepts f .rvalue T = true := by simp [thenAccepts, h0]
  refine ⟨h, ?_⟩
  have hI : invokeCb f T = none := by
    simp [Callable.takes] at h1 h2
    simp [invokeCb, h1, h2]
  unfold compileThen
  rw [if_pos h, hI]
  cases resultType f .rvalue T <;> rfl

/-- C71. `connect` with a function or lambda that takes no context object: compiles exactly if it can be called with the result or
without arguments, and gets the result exactly if it can take it. -/
theorem C71_connect_function (f : Callable Ty) (hf : f.Ordinary) (hm : f.member = false) (T)
    (h1 : ∀ rest, ¬ f.takes (.pointer :: rest)) (h2 : ∀ rest, ¬ f.takes (.object :: rest)) :
    compileConnect f T = if f.takes (valueArg T) then some (valueArg T) else if f.takes [] then some [] else none := by
  have hp : ∀ c rest, (f.inv c (.pointer :: rest)).isSome = false := fun c rest => by
    have := h1 rest; rw [Callable.takes, Bool.not_eq_true] at this; rw [hf c]; exact this
  have ho : ∀ c rest, (f.inv c (.object :: rest)).isSome = false := fun c rest => by
    have := h2 rest; rw [Callable.takes, Bool.not_eq_true] at this; rw [hf c]; exact this
  unfold compileConnect connectAccepts callFunc Callable.takes
  simp only [hp, ho, hm, hf .rvalue, hf .const]
  cases T with
  | none => by_cases hb : (f.inv .lvalue []).isSome = true <;> simp [valueArg, hb]
  | some t =>
    simp only [valueArg]
    by_cases ha : (f.inv .lvalue [.value t]).isSome = true <;> by_cases hb : (f.inv .lvalue []).isSome = true <;> simp [ha, hb]

/-- C71. `connect` with a member function of the context object (which is not at the same time one of the task's result):
compiles exactly if it takes the result or nothing, is called on the context object, and gets the result exactly if it can take it. -/
theorem C71_connect_member (f : Callable Ty) (hf : f.Ordinary) (hm : f.member = true) (T)
    (h0 : ¬ f.takes []) (h1 : T.isSome → ¬ f.takes (valueArg T)) (h2 : ∀ rest, f.inv .lvalue (.object :: rest) = f.inv .lvalue (.pointer :: rest)) :
    compileConnect f T = if f.takes (.pointer :: valueArg T) then some (.pointer :: valueArg T)
      else if f.takes [.pointer] then some [.pointer] else none := by
  unfold compileConnect connectAccepts callMember Callable.takes at *
  simp only [hm, hf .rvalue, hf .const, h2]
  rw [Bool.not_eq_true] at h0
  cases T with
  | none => by_cases hb : (f.inv .lvalue [.pointer]).isSome = true <;> simp [valueArg, h0, hb]
  | some t =>
    have h1 := h1 rfl
    simp only [valueArg] at h1 ⊢
    rw [Bool.not_eq_true] at h1
    simp only [h0, h1]
    by_cases ha : (f.inv .lvalue [.pointer, .value t]).isSome = true <;> by_cases hb : (f.inv .lvalue [.pointer]).isSome = true <;> simp [ha, hb]

/-- C71. What `connect` accepts although it cannot call it: a function (not a member) that takes the context object, a callable
that cannot be called while const (a `mutable` lambda), a member function of the result type. -/
theorem C71_connect_errors (f : Callable Ty) (T) :
    (f.member = false → (∀ c, f.inv c [] = none) → (∀ c t, f.inv c [.value t] = none) → compileConnect f T = none) ∧
    (f.member = false → (∀ args, f.inv .const args = none) → compileConnect f T = none) ∧
    (f.member = true → (∀ t, T = some t → (f.inv .rvalue [.object, .value t]).isSome = false ∧ (f.inv .rvalue [.value t]).isSome) → T.isSome → compileConnect f T = none) := by
  refine ⟨fun hm h0 h1 => ?_, fun hm h => ?_, fun hm h ht => ?_⟩
  · unfold compileConnect
    split
    · cases T with
      | none => simp [hm, callFunc, h0]
      | some t => simp [hm, callFunc, callMember, h0, h1]
    · rfl
  · unfold compileConnect
    split
    · cases T with
      | none => simp [hm, callFunc, h]
      | some t => simp [hm, callFunc, callMember, h]
    · rfl
  · cases T with
    | none => cases ht
    | some t =>
      have := h t rfl
      unfold compileConnect
      split
      · simp [hm, callFunc, this.1, this.2]
      · rfl

/-- C71. Whatever is compiled is a call that the callable can take, with the result only if there is one, and on the context object
exactly for member functions. -/
theorem C71_connect_call (f : Callable Ty) (T args) (h : compileConnect f T = some args) :
    (f.inv .const args).isSome ∧
    (f.member = false ∧ (args = [] ∨ args = valueArg T) ∨ f.member = true ∧ (args = [.pointer] ∨ args = .pointer :: valueArg T)) := by
  have hF : ∀ as bs, callFunc f as = some bs → bs = as ∧ f.member = false ∧ (f.inv .const bs).isSome := by
    intro as bs hb
    unfold callFunc at hb
    split at hb
    · next hc => cases hb; simp at hc; exact ⟨rfl, hc⟩
    · cases hb
  have hM : ∀ as bs, callMember f as = some bs → bs = .pointer :: as ∧ f.member = true ∧ (f.inv .const bs).isSome := by
    intro as bs hb
    unfold callMember at hb
    split at hb
    · next hc => cases hb; simp at hc; exact ⟨rfl, hc⟩
    · cases hb
  unfold compileConnect at h
  split at h
  · cases T with
    | none =>
      dsimp only at h
      split at h
      · obtain ⟨rfl, a, b⟩ := hM _ _ h; exact ⟨b, .inr ⟨a, .inl rfl⟩⟩
      · obtain ⟨rfl, a, b⟩ := hF _ _ h; exact ⟨b, .inl ⟨a, .inl rfl⟩⟩
    | some t =>
      dsimp only at h
      split at h
      · obtain ⟨rfl, a, b⟩ := hM _ _ h; exact ⟨b, .inr ⟨a, .inr rfl⟩⟩
      · split at h
        · obtain ⟨rfl, a, b⟩ := hF _ _ h; exact ⟨b, .inl ⟨a, .inr rfl⟩⟩
        · split at h
          · obtain ⟨rfl, a, b⟩ := hM _ _ h; exact ⟨b, .inr ⟨a, .inl rfl⟩⟩
          · obtain ⟨rfl, a, b⟩ := hF _ _ h; exact ⟨b, .inl ⟨a, .inl rfl⟩⟩
  · cases h

/-! Concrete callables: types are numbers, 0 is `int`, 1 a type without default constructor. -/

/-- Types convert to themselves only, type 1 has no default constructor. Not code of /repo. -/
def world : World Nat := ⟨fun a b => a == b, fun t => t != 1⟩

/-- `[](int) -> Task<int>`. Not code of /repo. -/
def taking : Callable Nat := ⟨fun _ a => if a = [.value 0] then some (.task false (some 0)) else none, false⟩

/-- `[](auto... v)` returning `void` without and type 2 with an argument. Not code of /repo. -/
def either : Callable Nat := ⟨fun _ a => if a = [] then some .void else if a = [.value 0] then some (.plain 2) else none, false⟩

/-- `&Context::method(int)`. Not code of /repo. -/
def method : Callable Nat :=
  ⟨fun _ a => if a = [.pointer, .value 0] ∨ a = [.object, .value 0] then some .void else none, true⟩

/-- `[](Context *, int) {}`, documented nowhere but accepted. Not code of /repo. -/
def withContext : Callable Nat := ⟨fun _ a => if a = [.pointer, .value 0] then some .void else none, false⟩

example : world.Refl := fun t => by simp [world]
example : taking.Ordinary := fun _ _ => rfl
example : compileThen world taking .rvalue false (some 0) = some ⟨[.value 0], some 0, false⟩ := by decide
example : compileThen world taking .rvalue true (some 0) = some ⟨[.value 0], some 0, false⟩ := by decide   -- an eager task from a lazy one

/-- C71 counterexample: a generic callback that can be called both ways, with different results, does not compile. -/
theorem C71_both_ways_rejected : compileThen world either .rvalue false (some 0) = none ∧ either.takes [] ∧ either.takes [.value 0] := by decide

/-- C71 counterexample: a callback returning a type without default constructor does not compile, even without an error callback. -/
theorem C71_needs_default : compileThen world ⟨fun _ a => if a = [] then some (.plain 1) else none, false⟩ .rvalue false (some 0) = none := by decide

example : compileConnect method (some 0) = some [.pointer, .value 0] := by decide

/-- C71. Overload resolution considers `connect(task, context, callable)` exactly if the callable can be called with nothing, the result, the
context object, or both (in this order) – more than what it can then call. -/
theorem C71_connect_accepts (f : Callable Ty) (hf : f.Ordinary) (T : Option Ty) :
    connectAccepts f T = true ↔
      f.takes [] ∨ (∃ t, T = some t ∧ f.takes [.value t]) ∨ f.takes [.pointer] ∨ (∃ t, T = some t ∧ f.takes [.pointer, .value t]) := by
  unfold connectAccepts Callable.takes
  simp only [hf .rvalue]
  cases T <;> simp [valueArg, or_assoc]

/-- C71 counterexample: `connect` accepts a function that takes the context object and cannot call it. -/
theorem C71_context_function : connectAccepts withContext (some 0) = true ∧ compileConnect withContext (some 0) = none := by decide

end QCoro.Callback
