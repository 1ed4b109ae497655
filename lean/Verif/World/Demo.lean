import Verif.World.Relay
import Verif.World.Loop
/-! Concrete runs for C87: coroutine 0 is `qCoro(obj0, signal, 5ms)`, coroutine 1 awaits the Task it returned. -/
namespace QCoro.World
open QCoro Task

/-- Encoding of results. -/
def enc : Option Nat → Nat
  | some a => a + 1
  | none => 0

/-- `n` machine steps, in which a `co_await` of something that is not a Task is one of the signal of object 0. -/
def run (n : Nat) (k : Sig.Kind) : List (Op Nat Nat Nat Nat) := List.replicate n (.task .run (some (0, k)))

/-- Both coroutines are suspended. -/
def wait : List (Op Nat Nat Nat Nat) := [.task (.main (.call .eager 0 0 [])) none] ++ run 3 (.timed 5) ++ [.task (.main (.call .eager 10 0 [])) none] ++ run 3 .plain
/-- The signal is emitted twice, from another thread, and the event loop runs. -/
def heardIt : List (Op Nat Nat Nat Nat) := wait ++ [.emit 0 1 41, .emit 0 2 77, .process 0] ++ run 10 .plain
/-- Nothing happens for 5 ms. -/
def late : List (Op Nat Nat Nat Nat) := wait ++ [.time 5, .fire 0 0] ++ run 10 .plain

set_option maxRecDepth 16000

theorem wait_hist : (exec demo enc wait).hist =
    [.task (.spawned 0 .eager), .task (.started 0), .task (.extSusp 0), .sig 0 (.awaited 0 0 (.timed 5) 0), .task (.spawned 1 .eager), .task (.started 1), .task (.awaitReg 1 0)] := by decide

theorem heard_hist : (exec demo enc heardIt).hist = (exec demo enc wait).hist ++
    [.sig 0 (.emitted 1 41), .sig 0 (.emitted 2 77), .sig 0 (.resumed 0 0 (some 41) 0 false), .task (.extRes 0 (.val 42)), .task (.finished 0 (.val 42)),
     .task (.gotWoken 1 0 (.val 42)), .task (.finished 1 (.val 42))] ∧ (exec demo enc heardIt).stop = false ∧ (exec demo enc heardIt).T.ub = none ∧ (exec demo enc heardIt).T.stack = [] := by decide

theorem late_hist : (exec demo enc late).hist = (exec demo enc wait).hist ++
    [.sig 0 (.resumed 0 0 none 5 false), .task (.extRes 0 (.val 0)), .task (.finished 0 (.val 0)), .task (.gotWoken 1 0 (.val 0)), .task (.finished 1 (.val 0))] := by decide

-- C87_value: the first emission, not the second
example := C87_value demo enc heardIt [.task (.spawned 0 .eager), .task (.started 0)]
    [.task (.spawned 1 .eager), .task (.started 1), .task (.awaitReg 1 0), .sig 0 (.emitted 1 41), .sig 0 (.emitted 2 77), .sig 0 (.resumed 0 0 (some 41) 0 false)]
    [.task (.finished 0 (.val 42)), .task (.gotWoken 1 0 (.val 42)), .task (.finished 1 (.val 42))] 0 0 0 (.timed 5) 0 (.val 42)
    (by rw [heard_hist.1, wait_hist]; rfl) (by decide)

-- C87_delivered
example : ∃ r, JEv.task (.extRes 0 r) ∈ ([.task (.spawned 1 .eager), .task (.started 1), .task (.awaitReg 1 0), .sig 0 (.emitted 1 41), .sig 0 (.emitted 2 77),
    .sig 0 (.resumed 0 0 (some 41) 0 false), .task (.extRes 0 (.val 42)), .task (.finished 0 (.val 42)), .task (.gotWoken 1 0 (.val 42)), .task (.finished 1 (.val 42))] : List (JEv Nat Nat Nat)) :=
  C87_delivered demo enc heardIt [.task (.spawned 0 .eager), .task (.started 0)] _ 0 0 0 (.timed 5) 0 1 41 (by rw [heard_hist.1, wait_hist]; rfl) (by decide) (by decide)

/-- Object 0 has one wait; the others have none. -/
theorem wait_idle : Idle (exec demo enc wait) := by
  refine ⟨by decide, fun j => ?_⟩
  cases j with
  | zero =>
    refine ⟨by decide, fun w d hd => ?_⟩
    cases w with
    | zero =>
      have h : (((exec demo enc wait).S 0).ws 0).timer = some 5 := by decide
      rw [h] at hd
      cases hd
      decide
    | succ w =>
      have h : (((exec demo enc wait).S 0).ws (w + 1)).timer = none := by
        obtain ⟨sops, hs⟩ := (winv_exec demo enc wait).so 0
        have hI := Sig.inv_exec sops
        rw [← hs] at hI
        have hr := hI.rel (w + 1)
        rw [hI.born (w + 1) (by rw [show ((exec demo enc wait).S 0).nw = 1 by decide]; omega)] at hr
        exact hr.2.2.1
      rw [h] at hd; cases hd
  | succ j => exact ⟨rfl, fun w d hd => by cases hd⟩

-- C87_idle: coroutine 1 awaits coroutine 0, which lacks the emission
example : ∃ e, (e = 1 ∨ Awaits (exec demo enc wait).T.log 1 e) ∧
    (Lacks (exec demo enc wait) e ∨ life e (exec demo enc wait).T.log = .waitNull ∨ Awaits (exec demo enc wait).T.log e e) :=
  C87_idle demo enc wait (by decide) wait_idle 1 (by show Ev.started 1 ∈ _; decide) (by decide)

example : Lacks (exec demo enc wait) 0 :=
  ⟨[.task (.spawned 0 .eager), .task (.started 0)], _, by rw [wait_hist]; rfl, by decide, .inr ⟨0, 0, .timed 5, 0, _, rfl, by decide, by decide, .inr (.inr (by decide))⟩⟩

-- C87_qCoro: code 0 of the demo program is such a body
theorem demo_relay : Relay demo 0 := ⟨1, by decide, fun _ => ⟨none, rfl⟩, fun _ => rfl, fun _ => rfl⟩

/-- Coroutine 0 only. -/
def short : List (Op Nat Nat Nat Nat) := [.task (.main (.call .eager 0 0 [])) none] ++ run 1 (.timed 5) ++ [.emit 0 1 41, .process 0] ++ run 1 .plain

/-- What the Task layer does in it. -/
theorem short_T : (exec demo enc short).T = Task.exec demo [.main (.call .eager 0 0 []), .run, .fire 0 (.val 42), .run] := by
  rfl

example := C87_qCoro demo enc short (t1 := []) (op := .main (.call .eager 0 0 [])) (t2 := [.run, .fire 0 (.val 42), .run]) (who := none) (k := .eager) (f := 0) (v := 0) (args := [])
    short_T ⟨rfl, .inl ⟨rfl, rfl, rfl⟩⟩ demo_relay (by decide) 0 rfl (.val 42) (by decide)

-- C87_first_await: coroutine 1 got what coroutine 0 returned
example : JEv.task (.finished 0 (.val 42)) ∈ ((exec demo enc heardIt).hist.take 12) :=
  C87_first_await demo enc heardIt _ [.task (.finished 1 (.val 42))] 1 0 (.val 42) (.gotWoken 1 0 (.val 42)) (by rw [heard_hist.1, wait_hist]; rfl) (.inr rfl)
    (by intro a' r'; rw [heard_hist.1, wait_hist]; simp)

-- an object that does not exist: `qCoro(obj, signal, timeout)` continues at once, with nothing
example : (exec demo enc ([.destroy 0, .task (.main (.call .eager 60 0 [])) none] ++ run 3 (.timed 5))).hist =
    [.sig 0 .destroyed, .task (.spawned 0 .eager), .task (.started 0), .task (.extSusp 0), .sig 0 (.awaited 0 0 (.timed 5) 0), .sig 0 (.resumed 0 0 none 0 false),
     .task (.extRes 0 (.val 0)), .task (.finished 0 (.val 0))] := by decide

-- destroyed while pending: the coroutine, and whoever awaits it, hangs, although the timeout has elapsed (C29)
example : let s := exec demo enc (wait ++ [.destroy 0, .time 100, .fire 0 0, .process 0]); life 0 s.T.log = .waitExt ∧ life 1 s.T.log = .waitTask 0 ∧ s.stop = false := by decide

-- C87_emit: wait 0 is pending, on object 0
example := C87_emit demo enc wait (by decide) (by decide) 0 7 41 (by decide)
example : ((exec demo enc (wait ++ [.emit 0 1 41, .emit 0 2 77])).S 0).posted 0 = [(0, 41), (0, 77)] := by decide

-- C87_process: two events are posted to coroutine 0; the first resumes it, the second is discarded
example := C87_process demo enc (wait ++ [.emit 0 1 41, .emit 0 2 77]) (by decide) (by decide) (by decide) 0 0 41 [(0, 77)] (by decide)

-- C87_timer
theorem late_wait : (exec demo enc (wait ++ [.time 5])).hist = (exec demo enc wait).hist := by decide
example := C87_timer demo enc (wait ++ [.time 5]) (by decide) (by decide) (by decide) [.task (.spawned 0 .eager), .task (.started 0)] _ 0 0 0 5 0
    (by rw [late_wait, wait_hist]; rfl) (by simp) (by decide) (by decide) (by decide)

-- C87_suspends
example := C87_suspends demo enc [.task (.main (.call .eager 0 0 [])) none] (by decide) (by decide) 0 [] 0 1 (by decide) (by decide) (by rfl) (by rfl) 0 (.timed 5) (by decide)

-- C87_begins, C87_clock
example := (C87_begins demo enc wait [.task (.spawned 0 .eager), .task (.started 0), .task (.extSusp 0)] [.task (.spawned 1 .eager), .task (.started 1), .task (.awaitReg 1 0)] 0 0 0 (.timed 5) 0 (by rw [wait_hist]; rfl)).2
example : ((exec demo enc (wait ++ [.time 5])).S 0).now = ((exec demo enc (wait ++ [.time 5])).S 3).now := C87_clock demo enc _ (by decide) 0 3

end QCoro.World
