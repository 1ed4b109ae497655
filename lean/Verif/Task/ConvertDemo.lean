import Verif.Task.Mapped
import Verif.Task.ThenDemo

/-! Concrete runs that meet the hypotheses of C67. -/
namespace QCoro.Task

theorem demo_forwards_ext : Forwards demo 0 0 (.ext none) := ⟨rfl, fun _ => rfl, fun _ => rfl⟩
theorem demo_forwards_task (o : Nat) : Forwards demo 10 o (.task o) := ⟨rfl, fun _ => rfl, fun _ => rfl⟩
theorem demo_forwards_ready (v : Nat) : Forwards demo 60 v (.ext (some (.val v))) := ⟨rfl, fun _ => rfl, fun _ => rfl⟩

-- the conversion is made by the very first call
theorem conv_performs (f v : Nat) : Performs demo (exec demo []) (.main (.call .eager f v [])) none (.call .eager f v []) := ⟨rfl, .inl ⟨rfl, rfl, rfl⟩⟩

-- C67_awaitable, C67_completes_iff, C67_outcome: the awaitable produces 5, or exception 9, or nothing
example : (exec demo ([] ++ .main (.call .eager 0 0 []) :: (go 3 ++ [.fire 0 (.val 5)] ++ go 5))).ub = none ∧
    (exec demo ([] ++ .main (.call .eager 0 0 []) :: (go 3 ++ [.fire 0 (.val 5)] ++ go 5))).stack = [] ∧
    .extRes 0 (.val 5) ∈ (exec demo ([] ++ .main (.call .eager 0 0 []) :: (go 3 ++ [.fire 0 (.val 5)] ++ go 5))).log ∧
    fins 0 (exec demo ([] ++ .main (.call .eager 0 0 []) :: (go 3 ++ [.fire 0 (.exc 9)] ++ go 5))).log = [.exc 9] ∧
    fins 0 (exec demo ([] ++ .main (.call .eager 0 0 []) :: go 3)).log = [] ∧ (exec demo ([] ++ .main (.call .eager 0 0 []) :: go 3)).stack = [] := by decide
-- C67_ready_awaitable
example : (exec demo ([] ++ .main (.call .eager 60 4 []) :: go 5)).ub = none ∧ (exec demo ([] ++ .main (.call .eager 60 4 []) :: go 5)).stack = [] ∧
    fins 0 (exec demo ([] ++ .main (.call .eager 60 4 []) :: go 5)).log = [.val 4] := by decide
-- a Task lvalue is converted (coroutine 1 awaits object 0 of coroutine 0)
example : Performs demo (exec demo thenPre) (.main (.call .eager 10 0 [])) none (.call .eager 10 0 []) ∧
    (exec demo (thenPre ++ .main (.call .eager 10 0 []) :: (go 3 ++ [.fire 0 (.val 5)] ++ go 12))).ub = none ∧
    (exec demo (thenPre ++ .main (.call .eager 10 0 []) :: (go 3 ++ [.fire 0 (.val 5)] ++ go 12))).stack = [] ∧
    fins 1 (exec demo (thenPre ++ .main (.call .eager 10 0 []) :: (go 3 ++ [.fire 0 (.val 5)] ++ go 12))).log = [.val 5] :=
  ⟨⟨by decide, .inl ⟨rfl, rfl, by decide⟩⟩, by decide⟩
-- C67_connect: `connRun` (in ThenDemo) is connect of a converted awaitable: task 0 is `co_return co_await external`
example (del : Bool) : connRun del = ([] ++ .main (.call .eager 0 0 []) :: go 3) ++ .main (.connect 0 3 40) ::
      (go 6 ++ (if del then [.main (.delCtx 3)] else []) ++ [.fire 0 (.val 5)] ++ go 20) := rfl
example : (gots 0 (exec demo (connRun false)).log).length = 1 ∧ (gots 0 (exec demo (connRun true)).log).length = 1 ∧
    .extRes 0 (.val 5) ∈ (exec demo (connRun false)).log ∧ .extRes 0 (.val 5) ∈ (exec demo (connRun true)).log ∧
    cbs 1 (exec demo (connRun false)).log = [5] ∧ cbs 1 (exec demo (connRun true)).log = [] := by decide

/-! C68: task 0 waits for something; `task.then([](auto x) -> Task<…> { co_return x + 1; })` on the named parameter `task`, which is then
destroyed, as in the constructor of `QmlTask`. -/
def cfgConv : ThenCfg Nat := ⟨70, some .eager, none, none⟩
def convRun (r : Res Nat Nat) : List (Op Nat Nat Nat) := thenPre ++ .main (.thenL 0 cfgConv) :: (go 3 ++ [.main (.drop 0)] ++ [.fire 0 r] ++ go 20)
theorem demo_converts : Converts demo 70 (fun x => x + 1) := fun _ => rfl
theorem convRun_makes :
    Makes demo (exec demo thenPre) (.main (.thenL 0 cfgConv)) (exec demo thenPre).nc cfgConv.plain false (thenKind cfgConv ((exec demo thenPre).obj 0).kind) ((exec demo thenPre).obj 0).handle :=
  .thenL none 0 cfgConv ⟨by decide, .inl ⟨rfl, rfl, by decide⟩⟩
example : (exec demo thenPre).nc = 1 ∧ ((exec demo thenPre).obj 0).handle = some 0 ∧ thenKind cfgConv ((exec demo thenPre).obj 0).kind = .eager ∧
    (exec demo (convRun (.val 5))).ub = none ∧ (exec demo (convRun (.val 5))).stack = [] ∧ (gots 0 (exec demo (convRun (.val 5))).log).length = 1 ∧
    life 1 (exec demo (convRun (.val 5))).log = .done ∧ fins 0 (exec demo (convRun (.val 5))).log = [.val 5] ∧ fins 1 (exec demo (convRun (.val 5))).log = [.val 6] ∧
    fins 1 (exec demo (convRun (.exc 9))).log = [.exc 9] ∧ (exec demo (convRun (.exc 9))).ub = none ∧ (exec demo (convRun (.exc 9))).stack = [] := by decide

end QCoro.Task
