import Verif.WebSocket.GenUb
import Verif.WebSocket.ServerLog
/-! # The theorems about web sockets applied to concrete runs: their hypotheses are met -/

set_option maxRecDepth 16000

namespace QCoro.WebSocketGen
theorem asked1 : Asked (run (-1) [.next, .msg (1 : Nat)]).log 0 := ⟨[], [.msg 1], by decide, by simp [isAnswer]⟩
theorem asked2 : Asked (run 5 [.next, .msg (1 : Nat), .deliver, .time 1, .next, .time 5]).log 1 := ⟨[.next 0, .msg 1, .got 1], [], by decide, by simp⟩

example := C53_answer (-1) [.next, .msg (1 : Nat)] (by decide) 0 asked1 (some 1) (by decide)
/-- One message was given, a second is still in the event loop when the consumer asks again. -/
example := C53_nothing_lost (-1) [.msg (7 : Nat), .next, .msg 1, .msg 2, .deliver] (by decide) (by decide)
example : (run (-1) ([.msg (7 : Nat), .next, .msg 1, .msg 2, .deliver] ++ [.next])).log = [.msg 7, .next 0, .msg 1, .msg 2, .got 1] ++ [.next 0] :=
  (C53_asks_waits (-1) [.msg (7 : Nat), .next, .msg 1, .msg 2, .deliver] (by decide) (by decide) (by decide)).1
example := C53_times_out 5 (by decide) [.next, .msg (1 : Nat), .deliver, .time 1, .next, .time 5] (by decide) 1 asked2 (by decide)
example := C53_end 5 [.next, .msg (1 : Nat), .deliver, .next, .time 5, .fire] [.next 0, .msg 1, .got 1, .next 0] [.released] 5 (by decide)
example := C53_silent_hang (β := Nat) [.deliver, .time 3, .fire, .deliver] (by simp)
example := C53_ub_iff (-1) [.next, .msg (1 : Nat), .deliver, .pause, .msg 2] .deliver (by decide)
/-- The consumer awaits something else only before its first begin(). -/
example : (run (-1) [.pause, .msg (1 : Nat), .deliver, .wake, .next, .msg 2, .deliver, .next]).L.ub = none := by
  apply C53_safe_if_only_iterating
  intro p q h
  left
  have : p = [] := by
    cases p with
    | nil => rfl
    | cons a p =>
      exfalso
      simp at h
      have : Op.pause ∈ [Op.msg (1 : Nat), .deliver, .wake, .next, .msg 2, .deliver, .next] := by rw [h.2]; simp
      simp at this
  subst this; simp [run, State.log]
end QCoro.WebSocketGen

namespace QCoro.WsServer
/-- One call returned at once, two wait. -/
def calls : List Op := [.newConn 9, .call 3, .time 2, .call 5, .call (-1)]
/-- One call waits. -/
def one : List Op := [.newConn 9, .call 3, .time 2, .call 5]
theorem calls_log : (exec calls).log = [.conn 9, .called 0 3 0, .ret 0 (some 9) 0, .called 1 5 2, .suspended 1, .called 2 (-1) 2, .suspended 2] := by decide
theorem one_log : (exec one).log = [.conn 9, .called 0 3 0, .ret 0 (some 9) 0, .called 1 5 2, .suspended 1] := by decide
theorem calls_waiting : Waiting (exec calls).log 1 5 2 := by rw [calls_log]; exact ⟨by simp, by simp, by decide⟩
theorem one_waiting : Waiting (exec one).log 1 5 2 := by rw [one_log]; exact ⟨by simp, by simp, by decide⟩
theorem calls_quiet : NoNews (exec calls).log 1 := by
  rw [calls_log]
  intro p q e x hx
  match p, e with
  | [_, _, _, _], e => simp only [List.cons_append, List.nil_append, List.cons.injEq, true_and] at e; rw [← e.2.2.2.2] at hx; simp at hx; rcases hx with rfl | rfl <;> rfl
  | [], e | [_], e | [_, _], e | [_, _, _], e | [_, _, _, _, _], e | [_, _, _, _, _, _], e => simp at e
  | _ :: _ :: _ :: _ :: _ :: _ :: _ :: r, e => simp at e
theorem one_quiet : NoNews (exec one).log 1 := by
  rw [one_log]
  intro p q e x hx
  match p, e with
  | [_, _, _, _], e => simp at e; rw [e.2.2.2.2] at hx; simp at hx
  | [], e | [_], e | [_, _], e | [_, _, _], e => simp at e
  | _ :: _ :: _ :: _ :: _ :: r, e => simp at e
theorem one_only : ∀ j, .suspended j ∈ (exec one).log → j = 1 := by rw [one_log]; intro j h; simpa using h

example := C54_at_once calls 7 (by decide)
example : .ret 1 (some 4) 3 ∈ (exec (one ++ .newConn 4 :: [.time 1] ++ [.deliver])).log :=
  C54_connection one (by decide) 1 5 2 one_waiting one_only one_quiet 4 [.time 1] (by intro op h; simp at h; subst h; simp)
example : .ret 1 none 3 ∈ (exec (one ++ .close :: [.time 1] ++ [.deliver])).log :=
  C54_close one (by decide) 1 5 2 one_waiting one_only one_quiet [.time 1] (by intro op h; simp at h; subst h; simp)
example := (C54_timeout calls (by decide) 1 5 2 calls_waiting).2 (by decide)
example : .ret 1 none 7 ∈ (exec (one ++ [.time 5] ++ [.fire 1])).log :=
  (C54_timeout (one ++ [.time 5]) (by decide) 1 5 2 (by
    have : (exec (one ++ [.time 5])).log = (exec one).log := by decide
    rw [this]; exact one_waiting)).1 (by decide)
theorem calls_unanswered : ∀ i, .suspended i ∈ (exec calls).log → i ∉ rets (exec calls).log := by
  rw [calls_log]; intro i h; simp at h; rcases h with rfl | rfl <;> decide
example := C54_wait_exact calls (by decide) calls_unanswered 1 5 2 calls_waiting calls_quiet [.newConn 1, .time 5, .newConn 2, .close]
  (by intro op h; simp at h; rcases h with rfl | rfl | rfl | rfl <;> simp)
example : (exec ([.call 5, .time 5, .fire 0] ++ [.newConn 7])).ub = true := C54_after_wait_uaf [.call 5, .time 5, .fire 0] (by decide) 0 (by decide) (by decide) 7
example : NullReturn [.called 0 5 0, .suspended 0] 0 5 := C54_null [.call 5, .time 5, .fire 0] _ [] 0 5 (by decide)
example := C54_null_sequential [.call 5, .time 5, .fire 0] [.called 0 5 0, .suspended 0] [] 0 5 (by decide) (by
  intro p j t t0 q e k t' t0' hk
  match p, e with
  | [], _ => simp at hk
  | [_], e => simp at e
  | _ :: _ :: r, e => simp at e)
end QCoro.WsServer
