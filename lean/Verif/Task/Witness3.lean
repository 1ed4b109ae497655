import Verif.Task.CallbackProps
import Verif.Task.CoReturnProps
/-! # The theorems of C70 and C71 applied to concrete types and callbacks: their hypotheses are met -/

namespace QCoro.Callback
theorem world_refl : world.Refl := fun t => by simp [world]
/-- `[](auto... v) -> int`, the same with and without an argument. Not code of /repo. -/
def generic : Callable Nat := ⟨fun _ a => if a = [] ∨ a = [.value 0] then some (.plain 0) else none, false⟩
/-- `[]() && {}`. Not code of /repo. -/
def once : Callable Nat := ⟨fun c a => if c = .rvalue ∧ a = [] then some .void else none, false⟩

example := C71_then_accepts world taking (fun _ _ => rfl) .rvalue false (some 0)
example := C71_then_call world taking .rvalue false (some 0) ⟨[.value 0], some 0, false⟩ (by decide)
example : compileThen world taking .rvalue true (some 0) = some ⟨[.value 0], some 0, false⟩ :=
  (C71_then_compiles world world_refl taking (fun _ _ => rfl) .rvalue true (some 0) [.value 0] (.task false (some 0)) (.inr rfl) (by decide)
    (by rintro args' (rfl | rfl) h <;> revert h <;> decide) ⟨[.value 0], some 0, false⟩).2 ⟨rfl, .task false (some 0), by intro t h; cases h; rfl⟩
example : compileThen world generic .lvalue true (some 0) = some ⟨[.value 0], some 0, true⟩ :=
  (C71_then_overloaded world generic (fun _ _ => rfl) .lvalue true 0 (.plain 0) (.plain 0) (by decide) (by decide) ⟨[.value 0], some 0, true⟩).2
    ⟨rfl, .plain 0 0 (by decide), .plain 0, by intro t h; cases h; rfl⟩
example : thenAccepts once .rvalue (some 0) = true ∧ compileThen world once .rvalue false (some 0) = none :=
  C71_then_rvalue_only world once false (some 0) (by decide) (by decide) (by decide)
example := C71_connect_function taking (fun _ _ => rfl) rfl (some 0) (by intro rest; simp [taking, Callable.takes]) (by intro rest; simp [taking, Callable.takes])
example := C71_connect_member method (fun _ _ => rfl) rfl (some 0) (by decide) (by decide) (by intro rest; simp [method])
example := C71_connect_call method (some 0) [.pointer, .value 0] (by decide)
example := C71_connect_accepts withContext (fun _ _ => rfl) (some 0)
end QCoro.Callback

namespace QCoro.CoReturn
theorem opt_sane : optStrings.Sane := ⟨fun _ _ => rfl, fun _ => rfl, fun b f x h => by cases h; rfl⟩
theorem any_sane : anyExc.Sane := ⟨fun _ _ => rfl, fun _ => rfl, fun b f x h => by cases h; rfl⟩
/-- A result type whose constructor throws. Not code of /repo. -/
def throwing : Types Nat Unit where
  same := false
  constructible _ := true
  implicit _ := true
  init _ := some fun x => (.thrown, x)
/-- A result type that cannot be made from the operand. Not code of /repo. -/
def alien : Types Nat Unit where
  same := false
  constructible _ := false
  implicit _ := false
  init _ := none

example := C70_stores optStrings opt_sane ⟨false, false⟩ rfl rfl [4] (.completed (.value (some [4])) [])
example : coReturn strings ⟨false, false⟩ [1] = coReturn strings ⟨false, true⟩ [1] := C70_lvalue_is_moved strings strings_sane rfl rfl [1]
example := C70_untouched_iff optStrings opt_sane ⟨false, false⟩ rfl rfl [4] (.value (some [4])) [] (by decide)
example : [4] = ([4] : List Nat) := C70_const_untouched optStrings opt_sane false [4] (.value (some [4])) [4] (by decide)
example : coReturn alien ⟨false, true⟩ 1 = none := (C70_rejected alien ⟨fun _ h => h, fun h => by simp [alien] at h, fun _ _ _ h => by simp [alien] at h⟩ ⟨false, true⟩ 1).1 rfl rfl rfl
example : coReturn throwing ⟨true, true⟩ 1 = some .terminated :=
  (C70_throwing_terminates throwing ⟨fun _ _ => rfl, fun _ => rfl, fun _ _ _ h => by cases h; rfl⟩ ⟨true, true⟩ rfl rfl 1).2 ⟨_, rfl, rfl⟩
example : coReturn anyExc ⟨false, true⟩ 3 = some (.completed .exc 3) := (C70_completes_with_exception anyExc any_sane ⟨false, true⟩ rfl rfl 3 3).2 ⟨_, rfl, rfl⟩
end QCoro.CoReturn
