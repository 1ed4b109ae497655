import Verif.Task.CoReturn
/-
C70: what `co_return operand;` stores and what it does to its operand.
-/
namespace QCoro.CoReturn

variable {X T : Type}

/-- Facts of C++ about any two types: what converts implicitly can be constructed; an object of type `T` can be constructed from
its own rvalue (a type that cannot be moved cannot be the result of a Task); reading a const operand does not change it. -/
structure Types.Sane (r : Types X T) : Prop where
  implicit : ∀ e, r.implicit e → r.constructible e
  own : r.same → r.constructible ⟨false, true⟩
  const : ∀ b f x, r.init ⟨true, b⟩ = some f → (f x).2 = x

/-- What is stored when the operand is converted from the expression `e'`, and what is left of the operand; `none` if ill-formed.
Specification, independent of the overloads. -/
def storedFrom (r : Types X T) (e' : Expr) (x : X) (a : After X T) : Prop :=
  ∃ f, r.init e' = some f ∧ (a = .terminated ∧ (f x).1 = .thrown ∨ (f x).1 ≠ .thrown ∧ a = .completed (f x).1 (f x).2)

theorem coReturn_of (r : Types X T) (e : Expr) (x : X) (o : Overload) (h : resolve r e = some o) (a : After X T) :
    coReturn r e x = some a ↔ storedFrom r (source e o) x a := by
  unfold coReturn storedFrom
  rw [h]
  dsimp only
  cases hf : r.init (source e o) with
  | none => simp
  | some f =>
    dsimp only
    cases hs : (f x).1 <;> simp [hs, eq_comm]

/-- Which overload is called, for every operand and all types. -/
theorem resolve_eq (r : Types X T) (hr : r.Sane) (e : Expr) : resolve r e =
    if r.same then
      match e with
      | ⟨false, true⟩ => some .ownRvalue
      | ⟨true, false⟩ => some .ownConst
      | ⟨false, false⟩ => some (if r.constructible ⟨false, false⟩ then .anyForward else .ownConst)
      | ⟨true, true⟩ => some (if r.constructible ⟨true, true⟩ then .anyForward else .ownConst)
    else
      match e with
      | ⟨true, false⟩ => if r.constructible ⟨false, true⟩ then some .anyConst else if r.constructible ⟨true, false⟩ then some .anyForward else none
      | e => if r.constructible e then some .anyForward else if r.constructible ⟨false, true⟩ then some .anyConst else none := by
  have h1 := hr.implicit e
  have h2 := hr.own
  rcases e with ⟨c, v⟩
  cases hs : r.same <;> cases h3 : r.constructible ⟨false, true⟩ <;> cases h4 : r.constructible ⟨c, v⟩ <;>
    cases h5 : r.implicit ⟨c, v⟩ <;> cases c <;> cases v <;>
    simp_all [resolve, overloads, better, viable, rank, takesRvalue]

theorem source_eq (r : Types X T) (hr : r.Sane) (e : Expr) (hc : r.constructible e) (hm : r.constructible ⟨false, true⟩) :
    ∃ o, resolve r e = some o ∧ source e o = if e.const then e else ⟨false, true⟩ := by
  rw [resolve_eq r hr e]
  rcases e with ⟨c, v⟩
  cases hs : r.same <;> cases c <;> cases v <;> simp_all [source]

/-- C70. What `co_return operand;` does, for all types and operands: the result is made from the operand as from an rvalue, even if the
operand is a named object that lives on; only const operands are copied. -/
theorem C70_stores (r : Types X T) (hr : r.Sane) (e : Expr) (hc : r.constructible e) (hm : r.constructible ⟨false, true⟩) (x : X)
    (a : After X T) : coReturn r e x = some a ↔ storedFrom r (if e.const then e else ⟨false, true⟩) x a := by
  obtain ⟨o, h1, h2⟩ := source_eq r hr e hc hm
  rw [coReturn_of r e x o h1, h2]

/-- C70. `co_return object;` is `co_return std::move(object);`, also if the object is a member, a global or a reference. -/
theorem C70_lvalue_is_moved (r : Types X T) (hr : r.Sane) (hc : r.constructible ⟨false, false⟩) (hm : r.constructible ⟨false, true⟩) (x : X) :
    coReturn r ⟨false, false⟩ x = coReturn r ⟨false, true⟩ x := by
  apply Option.ext
  intro a
  rw [C70_stores r hr _ hc hm, C70_stores r hr _ hm hm]
  simp

/-- C70. The operand keeps its value exactly if it is const or if moving from it leaves it as it is. -/
theorem C70_untouched_iff (r : Types X T) (hr : r.Sane) (e : Expr) (hc : r.constructible e) (hm : r.constructible ⟨false, true⟩) (x : X) (s left)
    (h : coReturn r e x = some (.completed s left)) :
    left = x ↔ e.const = true ∨ ∃ f, r.init ⟨false, true⟩ = some f ∧ (f x).2 = x := by
  rw [C70_stores r hr e hc hm] at h
  obtain ⟨f, hf, h⟩ := h
  rcases h with ⟨h, _⟩ | ⟨_, h⟩
  · cases h
  · cases h
    rcases e with ⟨c, v⟩
    cases c with
    | true => simp [hr.const v f x hf]
    | false => simp at hf; simp [hf]

/-- C70. Whatever the types: a const operand keeps its value (`co_return std::as_const(object);` is safe). -/
theorem C70_const_untouched (r : Types X T) (hr : r.Sane) (v : Bool) (x : X) (s left)
    (h : coReturn r ⟨true, v⟩ x = some (.completed s left)) : left = x := by
  obtain ⟨o, ho⟩ : ∃ o, resolve r ⟨true, v⟩ = some o := by
    cases ho : resolve r ⟨true, v⟩ with
    | none => simp [coReturn, ho] at h
    | some o => exact ⟨o, rfl⟩
  rw [coReturn_of r _ x o ho] at h
  obtain ⟨f, hf, h⟩ := h
  rcases h with ⟨h, _⟩ | ⟨_, h⟩
  · cases h
  · cases h
    have hne : o ≠ .ownRvalue := by
      rintro rfl
      rw [resolve_eq r hr] at ho
      cases hs : r.same <;> cases v <;> simp [hs] at ho <;> repeat' (split at ho) <;> simp at ho
    cases o with
    | ownRvalue => exact absurd rfl hne
    | ownConst => exact hr.const _ f x hf
    | anyForward => exact hr.const _ f x hf
    | anyConst => exact hr.const _ f x hf

/-- C70. An object of a type that cannot be copied from an lvalue (neither const nor not) cannot be co_returned by name, unless it is
a local variable: the program is rejected. -/
theorem C70_move_only_rejected (r : Types X T) (hr : r.Sane) (hs : r.same = true) (h1 : r.constructible ⟨false, false⟩ = false)
    (h2 : r.init ⟨true, false⟩ = none) (x : X) : coReturn r ⟨false, false⟩ x = none := by
  have h : resolve r ⟨false, false⟩ = some .ownConst := by rw [resolve_eq r hr]; simp [hs, h1]
  simp [coReturn, h, source, h2]

/-- C70. An operand from which the result type cannot be constructed at all is rejected, and so is (last part) one which the variant
of result and exception cannot be assigned from: a narrowing or explicit conversion, or one that fits both alternatives. -/
theorem C70_rejected (r : Types X T) (hr : r.Sane) (e : Expr) (x : X) :
    (r.same = false → r.constructible e = false → r.constructible ⟨false, true⟩ = false → coReturn r e x = none) ∧
    (r.constructible e → r.constructible ⟨false, true⟩ →
      (coReturn r e x = none ↔ r.init (if e.const then e else ⟨false, true⟩) = none)) := by
  refine ⟨fun hs h1 h2 => ?_, fun hc hm => ?_⟩
  · have h : resolve r e = none := by
      rw [resolve_eq r hr]
      rcases e with ⟨c, v⟩
      cases c <;> cases v <;> simp_all
    simp [coReturn, h]
  · obtain ⟨o, ho, hs⟩ := source_eq r hr e hc hm
    unfold coReturn
    rw [ho]
    dsimp only
    rw [hs]
    cases hf : r.init (if e.const then e else ⟨false, true⟩) with
    | none => simp
    | some f => dsimp only; cases (f x).1 <;> simp

/-- C70. An exception thrown by a constructor while the result is stored never reaches the awaiters: the process is terminated.
Nothing else terminates it. -/
theorem C70_throwing_terminates (r : Types X T) (hr : r.Sane) (e : Expr) (hc : r.constructible e) (hm : r.constructible ⟨false, true⟩) (x : X) :
    coReturn r e x = some .terminated ↔ ∃ f, r.init (if e.const then e else ⟨false, true⟩) = some f ∧ (f x).1 = .thrown := by
  rw [C70_stores r hr e hc hm]
  constructor
  · rintro ⟨f, hf, ⟨_, h⟩ | ⟨_, h⟩⟩
    · exact ⟨f, hf, h⟩
    · cases h
  · rintro ⟨f, hf, h⟩
    exact ⟨f, hf, .inl ⟨rfl, h⟩⟩

/-- C70. The Task fails (its awaiters get an exception) although nothing was thrown exactly if the operand is taken for the
alternative `std::exception_ptr`. -/
theorem C70_completes_with_exception (r : Types X T) (hr : r.Sane) (e : Expr) (hc : r.constructible e) (hm : r.constructible ⟨false, true⟩) (x : X) (left : X) :
    coReturn r e x = some (.completed .exc left) ↔
      ∃ f, r.init (if e.const then e else ⟨false, true⟩) = some f ∧ f x = (.exc, left) := by
  rw [C70_stores r hr e hc hm]
  constructor
  · rintro ⟨f, hf, ⟨h, _⟩ | ⟨_, h⟩⟩
    · cases h
    · refine ⟨f, hf, ?_⟩
      cases hfx : f x with
      | mk s l => rw [hfx] at h; simp at h; rw [← h.1, ← h.2]
  · rintro ⟨f, hf, h⟩
    exact ⟨f, hf, .inr (by rw [h]; simp)⟩

/-! Concrete types. -/

/-- Strings: `Task<QString>` and an operand of type QString; moving leaves an empty string. Models Qt, not code of /repo. -/
def strings : Types (List Nat) (List Nat) where
  same := true
  constructible _ := true
  implicit _ := true
  init e := some fun x => (.value x, if e.const || !e.rvalue then x else [])

theorem strings_sane : strings.Sane where
  implicit _ _ := rfl
  own _ := rfl
  const b f x h := by cases h; rfl

/-- A member function `Task<QString> name() { co_return m_name; }` empties the member. -/
theorem C70_member_emptied : coReturn strings ⟨false, false⟩ [1, 2, 3] = some (.completed (.value [1, 2, 3]) []) := by decide

/-- The same with `const auto &name = m_name; co_return name;`: nothing happens to the member. -/
example : coReturn strings ⟨true, false⟩ [1, 2, 3] = some (.completed (.value [1, 2, 3]) [1, 2, 3]) := by decide

/-- A string in a `Task<std::optional<QString>>`: another type, the same effect. -/
def optStrings : Types (List Nat) (Option (List Nat)) where
  same := false
  constructible _ := true
  implicit _ := true
  init e := some fun x => (.value (some x), if e.const || !e.rvalue then x else [])

example : optStrings.Sane := ⟨fun _ _ => rfl, fun _ => rfl, fun b f x h => by cases h; rfl⟩
example : coReturn optStrings ⟨false, false⟩ [4] = some (.completed (.value (some [4])) []) := by decide

/-- `std::unique_ptr`: cannot be copied. -/
def unique : Types (Option Nat) (Option Nat) where
  same := true
  constructible e := e.rvalue && !e.const
  implicit e := e.rvalue && !e.const
  init e := if e.rvalue && !e.const then some fun x => (.value x, none) else none

theorem unique_sane : unique.Sane where
  implicit _ h := h
  own _ := rfl
  const b f x h := by simp [unique] at h

example : coReturn unique ⟨false, false⟩ (some 1) = none := C70_move_only_rejected unique unique_sane rfl rfl rfl _
example : coReturn unique ⟨false, true⟩ (some 1) = some (.completed (.value (some 1)) none) := by decide

/-- `Task<std::any>` and an operand of type `std::exception_ptr`: both alternatives fit, the exception fits exactly. -/
def anyExc : Types Nat Unit where
  same := false
  constructible _ := true
  implicit _ := true
  init _ := some fun x => (.exc, x)

example : anyExc.Sane := ⟨fun _ _ => rfl, fun _ => rfl, fun b f x h => by cases h; rfl⟩
example : coReturn anyExc ⟨false, true⟩ 3 = some (.completed .exc 3) := by decide

end QCoro.CoReturn
