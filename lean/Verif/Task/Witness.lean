import Verif.Task.Props
import Verif.Task.ThenLazy
import Verif.Task.ThenMore
/-! # The theorems about Tasks applied to concrete runs: their hypotheses are met -/
namespace QCoro.Task

set_option maxRecDepth 32000

/-- The run `demoTwoDone`, then the Task of coroutine 1 is destroyed. -/
def wDrop : List (Op Nat Nat Nat) := demoTwoDone ++ [.main (.drop 1), .run]

/-- Coroutines 1 and 2 await coroutine 0, which fails. -/
def wFail : List (Op Nat Nat Nat) := demoTwo ++ [.fire 0 (.exc 9)] ++ go 12

/-- A LazyTask is made, then awaited by coroutine 1. -/
def wLazy : List (Op Nat Nat Nat) := [.main (.call .lazy 20 0 []), .main (.call .eager 10 0 [])] ++ go 10

/-- A LazyTask is made and dropped. -/
def wLeak : List (Op Nat Nat Nat) := [.main (.call .lazy 20 0 []), .main (.drop 0), .run]

/-- `isReady()` before and (twice) after completion. -/
def wReady : List (Op Nat Nat Nat) := demoTwo ++ [.main (.isReady 0), .fire 0 (.val 5)] ++ go 12 ++ [.main (.isReady 0), .main (.isReady 0)]

/-- A completed Task is awaited. -/
def wNow : List (Op Nat Nat Nat) := [.main (.call .eager 20 0 [])] ++ go 3 ++ [.main (.call .eager 10 0 [])] ++ go 3

/-- An empty Task is awaited. -/
def wNull : List (Op Nat Nat Nat) := [.main (.mkNull .eager), .main (.call .eager 10 0 []), .run]

-- C01: misuse; a completed, destroyed coroutine
example := C01_memory_safe demo [.main (.drop 3)] .badObj (by decide)
example := C01_memory_safe demo [.main (.mkNull .lazy), .main (.call .eager 10 0 []), .run] .lazyNull (by decide)
example : .destroyed 0 ∉ (exec demo wDrop).log := C01_no_dangling_task demo wDrop (by decide) 0 0 (by decide)
example := C01_no_dangling_frame demo wDrop (by decide) 1 (by decide)

-- C02
example := C02_freed_iff demo wDrop (by decide) 1 .eager (by decide)
example := C02_freed_iff demo demoTwo (by decide) 1 .eager (by decide)
example (ops' : List (Op Nat Nat Nat)) : life 0 (exec demo (wLeak ++ ops')).log = .initial ∧ .destroyed 0 ∉ (exec demo (wLeak ++ ops')).log :=
  C02_unawaited_lazy_leaks demo wLeak ops' (by decide) 0 (by decide) (by
    intro o
    match o with
    | 0 => decide
    | o + 1 => intro h; cases h)
example := C02_unique_owner demo demoTwo (by decide) (o := 1) (o' := 1) (c := 1) (by decide) (by decide)
example := C02_idle_alive_iff_held demo demoTwoDone (by decide) (by decide) 0 .eager (by decide) (by decide)

-- C03
example : life 1 (exec demo demoTwoDone).log = .done := C03_destroyed_only_when_done demo wDrop 1 (exec demo demoTwoDone).log [] (by decide)
example := C03_continues_without_owner demo ([.main (.call .eager 0 0 [])] ++ go 3 ++ [.main (.drop 0)] ++ go 2) 0 (.val 5) (by decide) (by decide) (by decide)

-- C04
example := C04_fifo_exactly_once demo demoTwo (by decide) 0
example := C04_all_resumed demo demoTwoDone (by decide) 0 (by decide) (by decide)
example := C04_resumed_after_completion demo demoTwoDone 2 0 (.val 0) ((exec demo demoTwoDone).log.take 13) _ (by rfl)
example := C04_stays_suspended demo demoTwo 1 0 ((exec demo demoTwo).log.take 5) _ (by rfl)

-- C05
example : fins 0 (exec demo demoTwoDone).log = [.val 5] := C05_first_awaiter demo demoTwoDone 0 (.val 5) [.val 0] (by decide)
/-- Values whose move leaves the source as it is. -/
def keepDemo : Prog Nat Nat Nat := { demo with mv := id }
example : fins 0 (exec keepDemo demoTwoDone).log = [.val 5] ∧ gots 0 (exec keepDemo demoTwoDone).log = [.val 5, .val 5] :=
  ⟨C05_all_awaiters keepDemo (fun _ => rfl) demoTwoDone 0 (.val 5) (by decide), by decide⟩
example := C05_completes_with_returned demo [.main (.call .eager 20 0 [])] (by decide) 0 [] (.user 20) (by decide) (by rfl)
example := C05_delivered_to_body demo (demoTwo ++ [.fire 0 (.val 5)] ++ go 1) .run (by decide) 1 0 (.val 5) [.gotWoken 1 0 (.val 5)] (by decide) (.inr (by decide))

-- C06
example : (.exc 9 : Res Nat Nat) = .exc 9 := C06_exception_to_all demo wFail 0 9 (by decide) (.exc 9) (by decide)
example := C06_kind_preserved demo wFail 0 9 (by decide)
example : fins 0 (exec demo [.main (.call .eager 30 0 []), .run]).log = [.exc 9] :=
  C06_completes_with_thrown demo [.main (.call .eager 30 0 [])] (by decide) 0 [] (.user 30) (by decide) (by rfl) 9 (by rfl)

-- C07
example := C07_starts_at_call demo demoTwo (by decide) 1 ((exec demo demoTwo).log.take 3) _ (by rfl)
example := C07_runs_synchronously demo [] ([.main (.call .eager 0 0 [])] ++ go 3) (by decide) (by decide) 0 (fun k h => by cases h) (by decide) (by decide)

-- C08
example := C08_lazy_started_iff_awaited demo wLazy (by decide) 0 (by decide)
example := C08_starts_at_await demo wLazy 0 ((exec demo wLazy).log.take 4) _ (by rfl) (by decide)

-- C09
example := C09_isReady_truth demo wReady 0 (some 0) false ((exec demo wReady).log.take 9) _ (by rfl)
example := C09_isReady_stays demo wReady 0 0 0 true ((exec demo wReady).log.take 16) [] [] (by decide)
example := C09_isReady_reply demo demoTwo (by decide) none 0 (by decide)

-- C10, C11
example := C10_await demo ([.main (.call .eager 0 0 [])] ++ go 3 ++ [.main (.call .eager 10 0 [])]) (by decide) 1 0 [] (.user 10) (by decide) (by rfl) (by rfl) (by decide)
example := (C10_trace demo wNow 1 0 ((exec demo wNow).log.take 5) ((exec demo wNow).log.drop 6)).1 (.val 7) (by decide)
example := (C10_trace demo demoTwo 2 0 ((exec demo demoTwo).log.take 8) []).2 (by decide)
example (ops' : List (Op Nat Nat Nat)) : life 0 (exec demo (wNull ++ ops')).log = .waitNull := (C11_null_await_hangs demo wNull ops' 0 (by decide)).1

-- C12
example := C12_move_construct demo (exec demo demoTwo) 0 (by decide) (by decide)
example := C12_self_move demo (exec demo demoTwo) 0 (by decide)
example := C12_move_assign_release demo (exec demo demoTwo) 1 0 (by decide) (by decide) (by decide) (by decide)
example := C12_move_assign_transfer demo (exec demo (demoTwo ++ [.main (.moveAssign 1 0)])) (by decide) 1 0 [] (by decide) (by decide) (by decide) (by decide)

end QCoro.Task
