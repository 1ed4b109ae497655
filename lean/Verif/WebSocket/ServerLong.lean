import Verif.Wait.Long
import Verif.WebSocket.Server
/-! # C86 for `nextPendingConnection` of a QWebSocketServer -/

namespace QCoro.WsServer
open QCoro.Long

/-- The deadline of a wait that starts at `now`: the timer's interval (`qcoro/core/qcorosignal.h:111-120`), which `QTimer` keeps as an
`int` before Qt 6.8; it exists iff the timeout given is above -1 (`:125-127`), and starts iff its interval is not negative. -/
def dueQ (q : Qt) (t : Int) (now : Nat) : Option Nat :=
  if t > -1 then (if 0 ≤ interval q t then some (now + (interval q t).toNat) else none) else none

/-- As `step` (`qcoro/websockets/qcorowebsocketserver.cpp:37-51`), with a timer that keeps its interval as `QTimer` does. -/
def stepQ (q : Qt) (s : State) (op : Op) : State :=
  if s.ub then s else
  match op with
  | .call t =>   -- `:37-51`
    let l := s.log ++ [.called s.calls t s.now]
    if s.listening = false then { s with calls := s.calls + 1, log := l ++ [.ret s.calls none s.now] }
    else match s.pending with
      | c :: rest => { s with calls := s.calls + 1, pending := rest, log := l ++ [.ret s.calls (some c) s.now] }
      | [] => { s with calls := s.calls + 1, waits := s.waits ++ [⟨s.calls, dueQ q t s.now⟩], fns := s.fns ++ [s.calls], log := l ++ [.suspended s.calls] }
  | op => step s op

/-- Bookkeeping of the model, no counterpart in /repo. -/
def execQ (q : Qt) (ops : List Op) : State := ops.foldl (stepQ q) {}

theorem execQ_snoc (q : Qt) (ops : List Op) (op : Op) : execQ q (ops ++ [op]) = stepQ q (execQ q ops) op := by simp [execQ]

/-- The same call with the timeout `f` makes of its own. Specification vocabulary, no counterpart in /repo. -/
def mapOp (f : Int → Int) : Op → Op | .call t => .call (f t) | op => op
/-- Specification vocabulary, no counterpart in /repo. -/
def mapEv (f : Int → Int) : Ev → Ev | .called i t now => .called i (f t) now | e => e

/-- Proof vocabulary, no counterpart in /repo. -/
def absL (f : Int → Int) (s : State) : State := { s with log := s.log.map (mapEv f) }

theorem absL_functor (f : Int → Int) (s : State) (i : Nat) : absL f (s.functor i) = (absL f s).functor i := by
  unfold State.functor
  by_cases hu : s.ub = true
  · rw [if_pos hu, if_pos (show (absL f s).ub = true from hu)]
  · rw [if_neg hu, if_neg (show ¬ (absL f s).ub = true from hu)]
    by_cases hw : s.waits.any (·.id = i) = true
    · rw [if_pos hw, if_pos (show (absL f s).waits.any (·.id = i) = true from hw)]; rfl
    · rw [if_neg hw, if_neg (show ¬ (absL f s).waits.any (·.id = i) = true from hw)]; rfl

theorem absL_fold (f : Int → Int) (l : List Nat) (s : State) : absL f (l.foldl State.functor s) = l.foldl State.functor (absL f s) := by
  induction l generalizing s with
  | nil => rfl
  | cons i l ih => simp only [List.foldl_cons, ih, absL_functor]

theorem lost_map (f : Int → Int) (i : Nat) (l : List (Nat × Option Nat)) :
    (l.filterMap (fun p => if p.1 = i then p.2.map Ev.lost else none)).map (mapEv f) = l.filterMap (fun p => if p.1 = i then p.2.map Ev.lost else none) := by
  induction l with
  | nil => rfl
  | cons p l ih =>
    obtain ⟨j, r⟩ := p
    by_cases h : j = i
    · cases r with
      | none => simpa [List.filterMap_cons, h] using ih
      | some c => simpa [List.filterMap_cons, h, mapEv] using ih
    · simpa [List.filterMap_cons, h] using ih

theorem absL_finish (f : Int → Int) (s : State) (i : Nat) (r : Option Nat) : absL f (s.finish i r) = (absL f s).finish i r := by
  simp only [absL, State.finish, List.map_append, lost_map]; rfl

theorem rej_map (f : Int → Int) (l : List Nat) : (l.map Ev.rejected).map (mapEv f) = l.map Ev.rejected := by
  rw [List.map_map]; rfl

theorem dueQ_eff (q : Qt) (t : Int) (now : Nat) :
    (if Wait.effT q t > -1 then some (now + (Wait.effT q t).toNat) else none) = dueQ q t now := by
  unfold dueQ Wait.effT
  by_cases h : 0 ≤ t
  · rw [if_pos h, if_pos (show t > -1 by omega)]
    by_cases hi : 0 ≤ interval q t
    · rw [if_pos hi, if_pos (show interval q t > -1 by omega)]
    · rw [if_neg hi, if_neg (show ¬ interval q t > -1 by omega)]
  · rw [if_neg h, if_neg (show ¬ t > -1 by omega), if_neg (show ¬ t > -1 by omega)]

theorem absL_step (q : Qt) (s : State) (op : Op) : absL (Wait.effT q) (stepQ q s op) = step (absL (Wait.effT q) s) (mapOp (Wait.effT q) op) := by
  unfold stepQ step
  by_cases hu : s.ub = true
  · rw [if_pos hu, if_pos (show (absL (Wait.effT q) s).ub = true from hu)]
  · rw [if_neg hu, if_neg (show ¬ (absL (Wait.effT q) s).ub = true from hu)]
    cases op with
    | call t =>
      dsimp only [mapOp]
      by_cases hl : s.listening = false
      · rw [if_pos hl, if_pos (show (absL (Wait.effT q) s).listening = false from hl)]
        simp [absL, mapEv]
      · rw [if_neg hl, if_neg (show ¬ (absL (Wait.effT q) s).listening = false from hl)]
        have hp : (absL (Wait.effT q) s).pending = s.pending := rfl
        rw [hp, show (absL (Wait.effT q) s).now = s.now from rfl, dueQ_eff]
        cases s.pending with
        | nil => simp [absL, mapEv]
        | cons c rest => simp [absL, mapEv]
    | newConn c =>
      dsimp only [mapOp]; rw [if_neg hu, absL_fold]
      congr 1
      simp [absL, mapEv]
    | close => dsimp only [mapOp]; rw [if_neg hu]; simp [absL, mapEv, Function.comp_def]
    | listen => dsimp only [mapOp]; rw [if_neg hu]; simp [absL, mapEv]
    | deliver =>
      dsimp only [mapOp]; rw [if_neg hu]
      rw [show (absL (Wait.effT q) s).posted = s.posted from rfl]
      cases s.posted with
      | nil => rfl
      | cons p rest => obtain ⟨i, r⟩ := p; exact absL_finish _ _ i r
    | time d => dsimp only [mapOp]; rw [if_neg hu]; rfl
    | fire i =>
      dsimp only [mapOp]; rw [if_neg hu]
      rw [show (absL (Wait.effT q) s).waits = s.waits from rfl, show (absL (Wait.effT q) s).now = s.now from rfl]
      by_cases h : s.waits.any (fun w => w.id = i && w.dueBy s.now) = true
      · rw [if_pos h, if_pos h]; exact absL_finish _ _ _ _
      · rw [if_neg h, if_neg h]

theorem absL_exec (q : Qt) (ops : List Op) : absL (Wait.effT q) (execQ q ops) = exec (ops.map (mapOp (Wait.effT q))) := by
  induction ops using QCoro.snocInd with
  | nil => rfl
  | snoc ops op ih => rw [execQ_snoc, absL_step, ih, List.map_append, List.map_singleton, exec_snoc]

/-- **C86** (nextPendingConnection). Before Qt 6.8 the calls behave as calls with other timeouts: the given one if it is below 2^31 ms; its
remainder modulo 2^32 if that is below 2^31; a negative one, which never passes, otherwise. Since Qt 6.8 they are as given. The log, up to
the timeouts recorded in it, and the connections still pending are the same. -/
theorem C86_server (q : Qt) (ops : List Op) : ∃ f : Int → Int,
    (∀ t, t < 2 ^ 31 → f t = t) ∧
    (q = .narrow → ∀ t, 0 ≤ t → t % 2 ^ 32 < 2 ^ 31 → f t = t % 2 ^ 32) ∧
    (q = .narrow → ∀ t, 0 ≤ t → 2 ^ 31 ≤ t % 2 ^ 32 → f t < 0) ∧
    (q = .wide → ∀ t, f t = t) ∧
    (execQ q ops).log.map (mapEv f) = (exec (ops.map (mapOp f))).log ∧
    (execQ q ops).pending = (exec (ops.map (mapOp f))).pending ∧
    (execQ q ops).ub = (exec (ops.map (mapOp f))).ub := by
  refine ⟨Wait.effT q, ?_, ?_, ?_, ?_, ?_, ?_, ?_⟩
  · intro t h; unfold Wait.effT; split
    · exact interval_short _ _ (by omega) h
    · rfl
  · rintro rfl t h0 h; unfold Wait.effT; rw [if_pos h0]; exact (interval_cases t).1 h
  · rintro rfl t h0 h; unfold Wait.effT; rw [if_pos h0]; exact (interval_cases t).2 h
  · rintro rfl t; unfold Wait.effT; split <;> rfl
  all_goals rw [← absL_exec]; rfl

/-- A month passes and the call has not timed out; one of 2^32 ms (about 50 days) returns at once. -/
theorem C86_found_server : (execQ .narrow [.call (2 ^ 31), .time (2 ^ 31), .fire 0]).log = [.called 0 (2 ^ 31) 0, .suspended 0] ∧
    (execQ .narrow [.call (2 ^ 32), .fire 0]).log = [.called 0 (2 ^ 32) 0, .suspended 0, .ret 0 none 0] := by decide

example : (execQ .wide [.call (2 ^ 31), .time (2 ^ 31), .fire 0]).log = [.called 0 (2 ^ 31) 0, .suspended 0, .ret 0 none (2 ^ 31)] := by decide
example : (execQ .narrow [.call 5, .time 4, .fire 0, .newConn 7, .deliver]).log = [.called 0 5 0, .suspended 0, .conn 7, .ret 0 (some 7) 4] := by decide

end QCoro.WsServer
