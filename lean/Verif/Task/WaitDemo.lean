import Verif.Task.WaitProps
import Verif.Task.WaitNow
import Verif.Task.ThenDemo

/-! Concrete runs for C13 and C14, and the failure of C14. -/
namespace QCoro.Task

/-- The main program calls `waitFor` on task 0, which awaits something external. -/
def waitOp (b : Bool) : Op Nat Nat Nat := .main (.waitFor (.task 0) b)
def waitRun (b : Bool) (r : Res Nat Nat) : List (Op Nat Nat Nat) := thenPre ++ waitOp b :: (go 6 ++ [.fire 0 r] ++ go 12)

theorem waitRun_waits (b : Bool) : Waits demo (exec demo thenPre) (waitOp b) none 0 1 (.task (some 0)) b :=
  have h : Waits demo (exec demo thenPre) (waitOp b) none (exec demo thenPre).nw (exec demo thenPre).nc ((exec demo thenPre).aim (.task 0)) b :=
    .mk none (.task 0) b ⟨by decide, .inl ⟨rfl, rfl, by decide⟩⟩
  h

-- C13: it enters its loop, the task completes with 5, it returns 5; nobody else read the result
example : (exec demo (waitRun false (.val 5))).ub = none ∧ (exec demo (waitRun false (.val 5))).stack = [] ∧
    .loopEnter 0 ∈ (exec demo (waitRun false (.val 5))).log ∧ .waitRet 0 (.val 5) ∈ (exec demo (waitRun false (.val 5))).log ∧
    .finished 0 (.val 5) ∈ (exec demo (waitRun false (.val 5))).log ∧ gots 0 (exec demo (waitRun false (.val 5))).log = [.val 5] ∧
    .extExit 0 ∉ (exec demo (waitRun false (.val 5))).log := by decide
-- C13: exceptions
example : (exec demo (waitRun false (.exc 9))).ub = none ∧ .waitRet 0 (.exc 9) ∈ (exec demo (waitRun false (.exc 9))).log := by decide
-- C13: the stack right before the return
example : (exec demo (thenPre ++ waitOp false :: (go 6 ++ [.fire 0 (.val 5)] ++ go 7))).ub = none ∧
    (exec demo (thenPre ++ waitOp false :: (go 6 ++ [.fire 0 (.val 5)] ++ go 7))).stack = [.loop 0] ∧
    .finished 0 (.val 5) ∈ (exec demo (thenPre ++ waitOp false :: (go 6 ++ [.fire 0 (.val 5)] ++ go 7))).log := by decide
-- C13: a task that is finished: no loop
def waitDone : List (Op Nat Nat Nat) := [.main (.call .eager 20 0 [])] ++ go 3
example : .finished 0 (.val 7) ∈ (exec demo waitDone).log ∧ (exec demo (waitDone ++ waitOp false :: go 8)).ub = none ∧
    (exec demo (waitDone ++ waitOp false :: go 8)).stack = [] ∧
    .waitRet 0 (.val 7) ∈ (exec demo (waitDone ++ waitOp false :: go 8)).log ∧ .loopEnter 0 ∉ (exec demo (waitDone ++ waitOp false :: go 8)).log := by decide
-- C13: nested calls: coroutine 1 (body 50) waits for task 0 and gets its value
def waitNest : List (Op Nat Nat Nat) := thenPre ++ [.main (.call .eager 50 0 [])]
theorem waitNest_waits : Waits demo (exec demo waitNest) .run (some 1) 0 2 (.task (some 0)) false :=
  have h : Waits demo (exec demo waitNest) .run (some 1) (exec demo waitNest).nw (exec demo waitNest).nc ((exec demo waitNest).aim (.task 0)) false :=
    .mk (some 1) (.task 0) false ⟨by decide, .inr ⟨1, [], .user 50, rfl, rfl, by decide, by decide, rfl, rfl⟩⟩
  h
example : (exec demo (waitNest ++ .run :: (go 6 ++ [.fire 0 (.val 5)] ++ go 8))).ub = none ∧
    .waitRet 0 (.val 5) ∈ (exec demo (waitNest ++ .run :: (go 6 ++ [.fire 0 (.val 5)] ++ go 8))).log ∧
    .waitRet 0 (.val 5) ∉ (exec demo (waitNest ++ .run :: (go 6 ++ [.fire 0 (.val 5)] ++ go 7))).log := by decide
-- C13: empty task
def waitNull : List (Op Nat Nat Nat) := [.main (.mkNull .eager)]
theorem waitNull_waits : Waits demo (exec demo waitNull) (waitOp false) none 0 0 (.task none) false :=
  have h : Waits demo (exec demo waitNull) (waitOp false) none (exec demo waitNull).nw (exec demo waitNull).nc ((exec demo waitNull).aim (.task 0)) false :=
    .mk none (.task 0) false ⟨by decide, .inl ⟨rfl, rfl, by decide⟩⟩
  h
example : (exec demo (waitNull ++ waitOp false :: go 10)).ub = none ∧ .loopEnter 0 ∈ (exec demo (waitNull ++ waitOp false :: go 10)).log := by decide

-- C13: an awaitable that is not a Task (a signal, a reply, …): the call waits in its event loop, gets exactly what it gives
def waitExtOp (b : Bool) : Op Nat Nat Nat := .main (.waitFor (.ext none) b)
theorem waitExt_waits (b : Bool) : Waits demo (exec demo []) (waitExtOp b) none 0 0 .ext b :=
  have h : Waits demo (exec demo []) (waitExtOp b) none (exec demo []).nw (exec demo []).nc ((exec demo []).aim (.ext none)) b :=
    .mk none (.ext none) b ⟨by decide, .inl ⟨rfl, rfl, by decide⟩⟩
  h
example : (exec demo ([] ++ waitExtOp false :: (go 6 ++ [.fire 0 (.val 5)] ++ go 6))).ub = none ∧
    (exec demo ([] ++ waitExtOp false :: (go 6 ++ [.fire 0 (.val 5)] ++ go 6))).stack = [] ∧
    (exec demo ([] ++ waitExtOp false :: (go 6 ++ [.fire 0 (.val 5)] ++ go 6))).log = [.waitCall 0 0 .ext, .spawned 0 .eager, .started 0, .extSusp 0,
      .loopEnter 0, .extRes 0 (.val 5), .finished 0 (.val 0), .destroyed 0, .waitRet 0 (.val 5)] := by decide
example : .waitRet 0 (.exc 9) ∈ (exec demo ([] ++ waitExtOp false :: (go 6 ++ [.fire 0 (.exc 9)] ++ go 6))).log := by decide
-- … right before the return
example : (exec demo ([] ++ waitExtOp false :: (go 6 ++ [.fire 0 (.val 5)] ++ go 4))).stack = [.loop 0] ∧
    Completed .ext 0 (exec demo ([] ++ waitExtOp false :: (go 6 ++ [.fire 0 (.val 5)] ++ go 4))).log :=
  ⟨by decide, .inr ⟨.val 5, rfl, by decide⟩⟩
-- … one that is ready: no event loop
def waitNowOp : Op Nat Nat Nat := .main (.waitFor (.ext (some (.val 7))) false)
theorem waitNow_performs : Performs demo (exec demo thenPre) waitNowOp none (.waitFor (.ext (some (.val 7))) false) :=
  ⟨by decide, .inl ⟨rfl, rfl, by decide⟩⟩
example : (exec demo (thenPre ++ waitNowOp :: go 9)).ub = none ∧ (exec demo (thenPre ++ waitNowOp :: go 9)).stack = [] ∧
    .waitRet 0 (.val 7) ∈ (exec demo (thenPre ++ waitNowOp :: go 9)).log ∧ .loopEnter 0 ∉ (exec demo (thenPre ++ waitNowOp :: go 9)).log := by decide
-- C14: the same two failures
example : (exec demo ([] ++ waitExtOp false :: (go 6 ++ [.exitLoop 0] ++ go 2))).ub = some .waitNoResult := by decide
example : (exec demo ([] ++ waitExtOp true :: (go 6 ++ [.exitLoop 0] ++ go 2 ++ [.fire 0 (.val 5)]))).ub = none ∧
    (exec demo ([] ++ waitExtOp true :: (go 6 ++ [.exitLoop 0] ++ go 2 ++ [.fire 0 (.val 5)] ++ go 4))).ub = some .waitCtxDead := by decide

/-- C14 fails: the loop of a `waitFor(Task<T>)` is quit before the task finished; the empty result is dereferenced. -/
theorem C14_value_counterexample :
    (exec demo (thenPre ++ waitOp false :: (go 6 ++ [.exitLoop 0] ++ go 2))).ub = some .waitNoResult ∧
    .finished 0 (.val 5) ∉ (exec demo (thenPre ++ waitOp false :: (go 6 ++ [.exitLoop 0] ++ go 2))).log := by decide

/-- C14 fails for `Task<void>` too: `waitFor` returns early; when the task finishes the runner writes into the dead
context. -/
theorem C14_void_counterexample :
    (exec demo (thenPre ++ waitOp true :: (go 6 ++ [.exitLoop 0] ++ go 2))).ub = none ∧
    .waitRet 0 (.val 0) ∈ (exec demo (thenPre ++ waitOp true :: (go 6 ++ [.exitLoop 0] ++ go 2))).log ∧
    (exec demo (thenPre ++ waitOp true :: (go 6 ++ [.exitLoop 0] ++ go 2 ++ [.fire 0 (.val 5)] ++ go 4))).ub = some .waitCtxDead := by decide

-- … but a quit that comes together with the completion is harmless
example : (exec demo (waitRun false (.val 5) ++ [.exitLoop 0] ++ go 3)).ub = none := by decide

end QCoro.Task
