import Verif.Task.WaitQuit
import Verif.Task.WaitAll
import Verif.Task.ToldDemo
import Verif.Task.ProgressDemo
import Verif.Task.ConvertDemo
import Verif.Task.Moves
import Verif.Task.Answers
import Verif.Task.Depth
/-! # The theorems about then, connect, waitFor, conversions and moves applied to concrete runs: their hypotheses are met -/
namespace QCoro.Task

set_option maxRecDepth 32000

/-- Call `w` has not returned. -/
theorem notRet {w : Nat} {l : List (Ev Nat Nat)} (h : l.all (fun e => match e with | .waitRet w' _ => w' != w | _ => true) = true) (y) : .waitRet w y ∉ l := by
  intro hy; have := List.all_eq_true.mp h _ hy; simp at this

/-- Task 0 has not completed. -/
theorem notComp {r : Nat} {l : List (Ev Nat Nat)} (h : l.all (fun e => match e with | .finished c _ => c != 0 | _ => true) = true) : ¬ Completed (.task (some 0)) r l := by
  rintro (⟨d, x, hd, hx⟩ | ⟨x, hd, hx⟩)
  · cases hd; have := List.all_eq_true.mp h _ hx; simp at this
  · cases hd

/-- Only coroutines 0, 1 and 2 exist. -/
theorem spawnedIn {l : List (Ev Nat Nat)} (h : l.all (fun e => match e with | .spawned c _ => decide (c < 3) | _ => true) = true) :
    ∀ c k, .spawned c k ∈ l → .destroyed c ∉ l → c ∈ [0, 1, 2] := by
  intro c k hc _
  have := List.all_eq_true.mp h _ hc
  simp at this ⊢; omega

/-- Coroutine 1 calls `waitFor`. -/
theorem waitNest_performs : Performs demo (exec demo waitNest) .run (some 1) (.waitFor (.task 0) false) :=
  ⟨by decide, .inr ⟨1, [], .user 50, rfl, rfl, by decide, by decide, rfl, rfl⟩⟩

/-! ### then -/

/-- Continuation 1 of task 0, whose Task (variable 0) is moved into it. -/
theorem then1 (cfg : ThenCfg Nat) : Makes demo (exec demo thenPre) (thenOp cfg) 1 cfg.plain true (thenKind cfg .eager) (some 0) := thenRun_makes cfg
theorem then1_same (cfg : ThenCfg Nat) (ops' : List (Op Nat Nat Nat)) (k : Kind) : Same demo thenPre (thenOp cfg) ops' 1 true k (some 0) := .inl rfl

/-- What happens after the call of `then`. -/
def thenRest (r : Res Nat Nat) : List (Op Nat Nat Nat) := go 3 ++ [.main (.drop 0)] ++ [.fire 0 r] ++ go 20

example := C15_story (then1 cfgPlain) (ops' := thenRest (.val 5)) (by decide)
example := C15_callback_at_most_once (then1 cfgPlain) (ops' := thenRest (.val 5)) (by decide)
example := C15_callback_value (then1 cfgPlain) (ops' := thenRest (.val 5)) (then1_same _ _ _) (by decide) ((exec demo (thenRun cfgPlain (.val 5))).log.take 10) _ 5 (by rfl)
example := C15_progress (then1 cfgPlain) (ops' := thenRest (.val 5)) (then1_same _ _ _) (by decide) (by decide) rfl (by decide) (by decide)
example := C15_callback_exactly_once (then1 cfgPlain) (ops' := thenRest (.val 5)) (then1_same _ _ _) (by decide) (by decide) (by decide) rfl rfl (v0 := 5) (by decide)
example := C15_result (then1 cfgPlain) (ops' := thenRest (.val 5)) (then1_same _ _ _) (by decide) rfl rfl rfl (v0 := 5) (r := .val 1) (by decide) (by decide)
example := C15_result_coroutine (then1 cfgCoro) (ops' := thenRest (.val 5)) (then1_same _ _ _) (by decide) rfl rfl rfl (v0 := 5) (r := .val 7) (by decide) (by decide)
example := C15_result_coroutine_exact (then1 cfgCoro) (ops' := thenRest (.val 5)) (then1_same _ _ _) (by decide) rfl rfl rfl (v0 := 5) (r := .val 7) (by decide) (by decide)
example : .finished 0 (.val 5) ∈ (exec demo (thenRun cfgPlain (.val 5))).log :=
  C15_exact_value (then1 cfgPlain) (ops' := thenRest (.val 5)) (by decide) (by decide) (v := 5) (by decide)
example := C16_error_routing (then1 cfgPlain) (ops' := thenRest (.exc 9)) (then1_same _ _ _) (by decide) rfl (e := 9) (by decide)
example := C16_error_routing_progress (then1 cfgPlain) (ops' := thenRest (.exc 9)) (then1_same _ _ _) (by decide) (by decide) (by decide) rfl (e := 9) (by decide)
example := C16_error_routing_progress (then1 cfgPlain) (ops' := thenRest (.exc 200)) (then1_same _ _ _) (by decide) (by decide) (by decide) rfl (e := 200) (by decide)

/-- … and the continuation's Task is destroyed. -/
def thenGone : List (Op Nat Nat Nat) := thenRest (.val 5) ++ [.main (.drop 2)] ++ go 5
example := C17_kept (then1 cfgPlain) (ops' := thenGone) (by decide) (by decide)
example := C17_kept_until_done (then1 cfgPlain) (ops' := thenGone) (by decide) (by decide)
example : .destroyed 0 ∉ (exec demo (thenPre ++ thenOp cfgPlain :: (go 3 ++ [.main (.drop 0)]))).log :=
  C17_not_destroyed_early (then1 cfgPlain) (by decide) (by decide)
example := C17_released (then1 cfgPlain) (ops' := thenGone) (by decide) (by decide) (by decide)
example : .destroyed 0 ∈ (exec demo (thenPre ++ thenOp cfgPlain :: thenGone)).log := C17_released_coroutine (then1 cfgPlain) (by decide) (by decide) (by decide)

theorem conn1 : Makes demo (exec demo thenPre) (.main (.connect 0 3 40)) 1 ⟨40, none, none, some 3⟩ false .eager (some 0) := connRun_makes
/-- After the call of `connect`. -/
def connRest (del : Bool) : List (Op Nat Nat Nat) := go 6 ++ (if del then [.main (.delCtx 3)] else []) ++ [.fire 0 (.val 5)] ++ go 20
example := (C18_context conn1 rfl (ops' := connRest false) (by decide)).1 ((exec demo (connRun false)).log.take 10) 5 _ (by rfl)
example := (C18_context conn1 rfl (ops' := connRest true) (by decide)).2 ((exec demo (connRun true)).log.take 11) ((exec demo (connRun true)).log.drop 12) (by decide)
example : cbs 1 (exec demo (connRun true)).log = [] :=
  C18_never_after_context_gone conn1 rfl (ops' := connRest true) (by decide) rfl (r := .val 5) (pre := (exec demo (connRun true)).log.take 9) (post := (exec demo (connRun true)).log.drop 10) (by decide) (by decide)
example := C18_called_iff conn1 rfl (ops' := connRest false) (by decide) (by decide) rfl (v0 := 5) (by decide)
example := C18_called_iff conn1 rfl (ops' := connRest true) (by decide) (by decide) rfl (v0 := 5) (by decide)

example := C08_then_lazy demo lazyPre (.main (.thenR 0 cfgPlain)) none 0 cfgPlain (.inr ⟨by decide, .inl ⟨rfl, rfl, by decide⟩⟩) (by decide) (.inr ⟨rfl, by decide⟩)
example := C07_then_eager demo thenPre (thenOp cfgPlain) none 0 cfgPlain (.inr ⟨by decide, .inl ⟨rfl, rfl, by decide⟩⟩) (by decide) (.inr ⟨rfl, by decide⟩)

/-! ### who waits for whom -/

theorem s1 : Started 1 (exec demo demoTwo).log := by show Ev.started 1 ∈ _; decide
example := C61_reason demo demoTwo (by decide) 1 s1
example := C61_idle demo demoTwo (by decide) (by decide) 1 s1
example := C61_blocked_from_outside demo demoTwo (by decide) (by decide) 1 s1 (by decide)
example : ∃ r, fins 1 (exec demo demoTwoDone).log = [r] :=
  C61_all_finish demo demoTwoDone (by decide) (by decide) (fun c h => by rcases demoTwoDone_idle c with h1 | h1 <;> rw [h1] at h <;> cases h)
    (fun c h => by rcases demoTwoDone_idle c with h1 | h1 <;> rw [h1] at h <;> cases h)
    (fun c h => by
      cases h with
      | one h => rcases demoTwoDone_idle c with h1 | h1 <;> rw [h1] at h <;> cases h
      | more h => rcases demoTwoDone_idle c with h1 | h1 <;> rw [h1] at h <;> cases h) 1 (by show Ev.started 1 ∈ _; decide)

/-- The whole run with two nested calls of `waitFor`. -/
def nestAll : List (Op Nat Nat Nat) := (nestPre ++ .main (.waitFor (.task 0) false) :: nestMid) ++ .main (.waitFor (.task 1) false) :: (nestEnd ++ [.fire 1 (.val 6)] ++ go 14)
example := C62_nested_waits_return_in_reverse_order nest_first nest_second (n := nestEnd ++ [.fire 1 (.val 6)] ++ go 14) (by decide)
  (notRet (by decide)) (pre := (exec demo nestAll).log.take 27) (x := .val 5) (post := (exec demo nestAll).log.drop 28) (by decide)

/-! ### waitFor -/

/-- After the call. -/
def waitRest (r : Res Nat Nat) : List (Op Nat Nat Nat) := go 6 ++ [.fire 0 r] ++ go 12
theorem waitRet5 : (exec demo (thenPre ++ waitOp false :: waitRest (.val 5))).log = (exec demo (thenPre ++ waitOp false :: waitRest (.val 5))).log.take 13 ++ .waitRet 0 (.val 5) :: [] := by decide
example := C13_returns_result (waitRun_waits false) (ops' := waitRest (.val 5)) (by decide) waitRet5
example := C13_returns_only_after_completion (waitRun_waits false) (ops' := waitRest (.val 5)) (by decide) waitRet5 (by decide)
example := C13_empty_task_never_returns waitNull_waits (ops' := go 10) (by decide) (by decide) (.val 3)
example := C13_exact_outcome (waitRun_waits false) (ops' := waitRest (.val 5)) (by decide) waitRet5 (by decide) (by decide)
example := C13_exact_exception (waitRun_waits false) (ops' := waitRest (.exc 9)) (by decide)
  (pre := (exec demo (thenPre ++ waitOp false :: waitRest (.exc 9))).log.take 13) (x := .exc 9) (post := []) (by decide) 9
example := C13_exact_awaitable (waitExt_waits false) (ops' := go 6 ++ [.fire 0 (.val 5)] ++ go 6) (by decide)
  (pre := [.waitCall 0 0 .ext, .spawned 0 .eager, .started 0, .extSusp 0, .loopEnter 0, .extRes 0 (.val 5), .finished 0 (.val 0), .destroyed 0]) (x := .val 5) (post := []) (by decide)
example := C13_loop_only_if_unfinished (waitRun_waits false) (ops' := waitRest (.val 5)) (by decide) (pre := (exec demo (thenPre ++ waitOp false :: waitRest (.val 5))).log.take 7)
  (post := (exec demo (thenPre ++ waitOp false :: waitRest (.val 5))).log.drop 8) (by decide)
theorem waitDone_waits : Waits demo (exec demo waitDone) (waitOp false) none 0 1 (.task (some 0)) false :=
  have h : Waits demo (exec demo waitDone) (waitOp false) none (exec demo waitDone).nw (exec demo waitDone).nc ((exec demo waitDone).aim (.task 0)) false :=
    .mk none (.task 0) false ⟨by decide, .inl ⟨rfl, rfl, by decide⟩⟩
  h
example : .loopEnter 0 ∉ (exec demo (waitDone ++ waitOp false :: go 8)).log := C13_finished_task_no_loop waitDone_waits (by decide) (r0 := .val 7) (by decide)
example := C13_ready_awaitable waitNow_performs (ops' := go 9) (by decide)
example := C13_returns_at_most_once (waitRun_waits false) (ops' := waitRest (.val 5)) (by decide) waitRet5 (.val 6)
example := C13_returned_iff_gone (waitRun_waits false) (ops' := waitRest (.val 5)) (by decide)
/-- Right before the return. -/
def waitBack : List (Op Nat Nat Nat) := go 6 ++ [.fire 0 (.val 5)] ++ go 7
example := C13_returns_when_finished (waitRun_waits false) (ops' := waitBack) (by decide) (st := []) (.inl (by decide)) (.inl ⟨0, .val 5, rfl, by decide⟩)
example := C13_delivered_to_caller waitNest_waits (ops' := go 6 ++ [.fire 0 (.val 5)] ++ go 7) (o := .run) (by decide) (x := .val 5) (by decide) (by decide)
example := C13_every_return_has_a_call demo (waitRun false (.val 5)) (by decide) (w := 0) (x := .val 5) (by decide)
example := C14_ub_only_after_outside_quit demo (thenPre ++ waitOp false :: (go 6 ++ [.exitLoop 0] ++ go 2)) (.inl (by decide))
example := C14_no_outside_quit demo (waitRun false (.val 5)) (by intro w hw; simp [waitRun, thenPre, waitOp, go] at hw)
/-- The loop is quit from outside. -/
def quitRest : List (Op Nat Nat Nat) := go 6 ++ [.exitLoop 0]
example : (exec demo (thenPre ++ waitOp false :: quitRest ++ [.run])).ub = some .waitNoResult :=
  C14_quit_value_ub (waitRun_waits false) (by decide) (st := []) (by decide) (by decide) (notComp (by decide))
example := C14_quit_void_returns (waitRun_waits true) (ops' := quitRest) (by decide) (st := []) (by decide) (by decide) (notComp (by decide))
example : (exec demo (thenPre ++ waitOp true :: (quitRest ++ go 1 ++ [.fire 0 (.val 5)] ++ go 2) ++ [.run])).ub = some .waitCtxDead :=
  C14_quit_void_later_ub (waitRun_waits true) (by decide) (pre := (exec demo (thenPre ++ waitOp true :: quitRest)).log) (x := .val 0)
    (post := (exec demo (thenPre ++ waitOp true :: (quitRest ++ go 1 ++ [.fire 0 (.val 5)] ++ go 2))).log.drop 10) (by decide) (notComp (by decide)) (st := [.final 0]) (by decide)

/-! ### bodies as sequential programs, conversions -/

/-- Coroutine 1 awaits Task 0, which produces 5. -/
def awRest : List (Op Nat Nat Nat) := go 3 ++ [.fire 0 (.val 5)] ++ go 12
example := C66_body_is_a_sequential_program aw_performs (ops' := awRest) (by decide)
example := C66_goes_on_where_it_stopped aw_performs (ops' := awRest) (by decide) rfl rfl
example := C66_callback_is_a_sequential_program (then1 cfgCoro) (ops' := thenRest (.val 5)) (by decide) (d := 2) (by decide)
example := C66_answers waitNest_performs (by decide)
/-- Two Tasks are passed to a call. -/
theorem pass_performs : Performs demo (exec demo demoTwo) (.main (.call .eager 0 0 [2, 0])) none (.call .eager 0 0 [2, 0]) := ⟨by decide, .inl ⟨rfl, rfl, by decide⟩⟩
example := C66_arguments pass_performs (by decide) (by decide) (by decide) 1 (by decide)

/-- `co_return co_await external` is called. -/
def convRest (r : Res Nat Nat) : List (Op Nat Nat Nat) := go 3 ++ [.fire 0 r] ++ go 5
example := C67_outcome (conv_performs 0 0) rfl demo_forwards_ext (ops' := convRest (.val 5)) (by decide) (x := .val 5) (by decide)
example := C67_completes_iff (conv_performs 0 0) rfl demo_forwards_ext (ops' := convRest (.val 5)) (by decide) (by decide)
example := C67_awaitable (conv_performs 0 0) rfl demo_forwards_ext (ops' := convRest (.exc 9)) (by decide) (by decide) (.exc 9)
example : .finished 0 (.val 4) ∈ (exec demo ([] ++ .main (.call .eager 60 4 []) :: go 5)).log :=
  C67_ready_awaitable (conv_performs 60 4) rfl (demo_forwards_ready 4) (by decide) (by decide)
example := C67_outcome aw_performs (c := 1) rfl (demo_forwards_task 0) (ops' := awRest) (by decide) (x := .val 5) (by decide)
theorem conn0 : Makes demo (exec demo ([] ++ .main (.call .eager 0 0 []) :: go 3)) (.main (.connect 0 3 40)) 1 ⟨40, none, none, some 3⟩ false .eager (some 0) := connRun_makes
example := C67_connect (conv_performs 0 0) rfl demo_forwards_ext conn0 (q := 3) rfl (ops' := connRest false) (by decide) (by decide) (by decide) (x := 5) (by decide)

theorem map1 : Makes demo (exec demo thenPre) (.main (.thenL 0 cfgConv)) 1 cfgConv.plain false .eager (some 0) := convRun_makes
example := C68_outcome map1 (.inr (.inl rfl)) (ops' := thenRest (.val 5)) (by decide) rfl rfl rfl demo_converts (r := .val 6) (by decide)
example := C68_completes map1 (.inr (.inl rfl)) (ops' := thenRest (.exc 9)) (by decide) (by decide) (by decide) rfl rfl rfl demo_converts

/-! ### objects, native stack -/

example := C74_drop demo demoTwoDone (.main (.drop 1)) none 1 ⟨by decide, .inl ⟨rfl, rfl, by decide⟩⟩
example := C74_move_construct demo demoTwo (.main (.moveNew 0)) none 0 ⟨by decide, .inl ⟨rfl, rfl, by decide⟩⟩ (by decide)
example := C74_move_assign demo demoTwoDone (.main (.moveAssign 1 0)) none 1 0 ⟨by decide, .inl ⟨rfl, rfl, by decide⟩⟩ (by decide)
example := C74_self_move demo demoTwoDone (.main (.moveAssign 1 1)) none 1 ⟨by decide, .inl ⟨rfl, rfl, by decide⟩⟩ (by decide)

/-- Coroutine 0 has completed and resumes coroutine 1. -/
def deep : List (Op Nat Nat Nat) := demoTwo ++ [.fire 0 (.val 5)] ++ go 2
example : active (exec demo deep).stack = [1, 0] := by decide
example := C84_no_reentry demo deep (by decide)
example := C84_only_existing demo deep (by decide) 1 (by decide)
example : (active (exec demo deep).stack).length ≤ 3 := C84_depth demo deep (by decide) [0, 1, 2] (spawnedIn (by decide))
example := C84_waitFor demo ((nestPre ++ .main (.waitFor (.task 0) false) :: nestMid) ++ .main (.waitFor (.task 1) false) :: nestEnd) (by decide)

end QCoro.Task
