import Verif.Await.Props
import Verif.Await.Takes
import Verif.Await.Shared
import Verif.Await.SharedReply
import Verif.Await.Timers
/-! # The theorems about awaiting Qt objects applied to concrete runs: their hypotheses are met -/

set_option maxRecDepth 16000

namespace QCoro.Aw

/-- Data arrives in two chunks, the first one wakes the coroutine. -/
def reads : List (Op IOSig IODev) := [.sig .bytesWritten, .dev { data := [1] }, .sig .readyRead, .dev { data := [1, 2] }, .loop]
example : (run readOp (some { data := [5] }) [] reads).out = [.got (.ok [5])] := C40_immediate { data := [5] } (by simp [IODev.empty]) [] reads
example := (C40_result {} ⟨rfl, rfl, rfl⟩ reads (.ok [1, 2])).1 (by decide)
example : (run readOp (some {}) [] reads).out = [.got (.ok [1, 2])] :=
  (C40_result {} ⟨rfl, rfl, rfl⟩ reads (.ok [1, 2])).2
    ⟨[.sig .bytesWritten, .dev { data := [1] }], .readyRead, [.dev { data := [1, 2] }], [], rfl, .inl rfl, by decide, by simp, by decide, by decide⟩
example := C40_only_from_event_loop (some {}) [] reads (.sig .aboutToClose) (by decide)
example := C40_complete {} ⟨rfl, rfl, rfl⟩ [.time 3] [.time 1, .loop] .aboutToClose (.inr rfl) (by decide) (by decide)
example : (run readOp (some {}) [] [.sig .bytesWritten, .gone, .sig .readyRead, .loop]).out = [] :=
  C40_pending {} ⟨rfl, rfl, rfl⟩ [.sig .bytesWritten, .gone, .sig .readyRead, .loop] (by
    intro p y q e hy
    match p, e with
    | [], e => simp at e; exact absurd e.1.symm hy
    | [_], e => simp at e
    | [_, a], e => simp at e; simp [← e.2.1]
    | [_, _, _], e => simp at e
    | _ :: _ :: _ :: _ :: r, e => simp at e)

example : (run replyOp (some true) [] [.loop]).out = [.got (some true)] := C46_await_immediate (some true) (by decide) [] [.loop]
example := C46_await_only_from_event_loop (some false) [] [.dev true] (.sig .finished) (by decide)
example := C46_await_complete [.sig .readyRead, .dev true] [.time 1, .loop] (by decide) (by decide)
example := C46_await_destroyed_hangs [.time 3] [.sig .finished, .loop] (by decide)
example := C46_await_other_thread_lost [.dev true, .sig .finished] [.loop, .loop] (by decide) (by decide)
example := C46_await_other_thread_destroyed [.dev true, .gone] [.loop] (by decide)

/-- `isNull`-like condition that is never true at first, and every signal completes. -/
abbrev never (_ : Option Nat) : Bool := false
abbrev every (_ : ReplySig) : Bool := true
theorem neither3 : Neither (σ := ReplySig) (δ := Nat) every 10 [.time 9, .fire] := by
  intro p op q e
  match p, e with
  | [], e => simp at e; rw [← e.1]; exact ⟨by simp [Completion], by simp [Expiry]⟩
  | [_], e => simp at e; rw [← e.2.1, ← e.1]; exact ⟨by simp [Completion], by simp [Expiry, elapsed]⟩
  | _ :: _ :: r, e => simp at e
example : (run (waitOp never every 10) (some 0) [] [.time 9, .fire, .time 1, .fire, .sig .finished, .loop]).out = [.got false] :=
  (C60_result never every 10 0 rfl [.time 9, .fire, .time 1, .fire, .sig .finished, .loop] false).2
    ⟨[.time 9, .fire, .time 1], .fire, [.sig .finished], [], rfl, by decide, by
      intro p op q e
      match p, e with
      | [], e => simp at e; rw [← e.1]; exact ⟨by simp [Completion], by simp [Expiry]⟩
      | [_], e => simp at e; rw [← e.2.1, ← e.1]; exact ⟨by simp [Completion], by simp [Expiry, elapsed]⟩
      | [_, _], e => simp at e; rw [← e.2.2.1]; exact ⟨by simp [Completion], by simp [Expiry]⟩
      | _ :: _ :: _ :: r, e => simp at e, .inr ⟨rfl, rfl, by decide, by decide⟩⟩
example : (run (waitOp never every 10) (some 0) [] [.time 9, .fire, .sig .finished, .loop]).out = [.got true] :=
  (C60_result never every 10 0 rfl [.time 9, .fire, .sig .finished, .loop] true).2
    ⟨[.time 9, .fire], .sig .finished, [], [], rfl, by decide, neither3, .inl ⟨rfl, .finished, rfl, rfl, by decide⟩⟩
example := C60_only_from_event_loop never every 10 (some 0) [] [.time 9, .fire] (.sig .finished) (by decide)
example := C60_complete never every 10 0 rfl [.time 9] [.time 1, .loop] (.sig .finished) (.inl ⟨.finished, rfl, rfl, by decide⟩) (by decide)
example := C60_complete never every 10 0 rfl [.time 12] [.loop] .fire (.inr ⟨rfl, by decide, by decide⟩) (by decide)
example := C60_ready (fun d => d == some 4) every 10 (some 4) rfl [] [.time 9, .fire]
example := (C59_waitOperation_timer never every 10 0 rfl [.time 12, .fire, .loop]).1 (by decide)
example := (C59_waitOperation_timer never every 10 0 rfl [.time 12]).2 (by decide) (by decide)

example : (run timerOp (some false) [] [.sig .timeout]).out = [.got ()] := C49_immediate (some false) (by decide) [] [.sig .timeout]
example : (run timerOp (some true) [] [.dev false, .time 9, .fire]).out = [] := C49_stopped_hangs [.dev false, .time 9, .fire] (by decide)
example := (C49_leaves true [.time 3] (.sig .timeout) (by decide)).2 (by decide)

/-- The future finishes with 42. -/
def fin42 : Fut Nat := { finished := true, content := .value 42 }
/-- … is told to the watcher. -/
def ops42 : List (Op FutSig (Fut Nat)) := [.time 3, .dev fin42, .sig .finished]
theorem watcher42 : WatcherOK ({} : Fut Nat) ops42 := by
  refine ⟨by decide, ?_⟩
  intro p q e
  match p, e with
  | [], e => simp [ops42] at e
  | [_], e => simp [ops42] at e
  | [a, b], e => simp [ops42] at e; rw [← e.1, ← e.2.1]; exact ⟨fin42, by decide, rfl⟩
  | _ :: _ :: _ :: r, e => simp [ops42] at e
example : (run (futOp Nat) (some fin42) [] []).out = [.got (some (.value 42))] := C48_immediate fin42 (.inl rfl) [] []
example : (run (futOp Nat) (some {}) [] ops42).out = [.got (some (.value 42))] :=
  (C48_result {} ⟨rfl, rfl⟩ ops42 watcher42 _).2 ⟨[.time 3, .dev fin42], [], fin42, rfl, by decide, by decide, rfl, rfl⟩
example := C48_complete ({} : Fut Nat) [] [.time 3, .dev fin42] [.loop] (by decide) (by decide)
example := C48_pending ({} : Fut Nat) ⟨rfl, rfl⟩ [.time 3, .dev fin42, .loop] (by decide)
example := C48_canceled_later ({} : Fut Nat) ⟨rfl, rfl⟩
example : (run futVoidOp (some {}) [] [.dev { finished := true, content := .exception 7 }, .sig .finished]).out = [.got (some (.throws 7))] :=
  (C48_void_result {} ⟨rfl, rfl⟩ [.dev { finished := true, content := .exception 7 }, .sig .finished]
    ⟨by decide, by
      intro p q e
      match p, e with
      | [], e => simp at e
      | [a], e => simp at e; rw [← e.1]; exact ⟨{ finished := true, content := .exception 7 }, by decide, rfl⟩
      | _ :: _ :: r, e => simp at e⟩ _).2 ⟨[.dev { finished := true, content := .exception 7 }], [], _, rfl, by decide, rfl, rfl, rfl⟩
example := C48_take ({} : Fut Nat) ⟨rfl, rfl⟩ [.time 3, .dev fin42] (by decide) (by decide) fin42 (by decide)

example : (run (busOp Nat) (some none) [] [.loop, .dev (some 3), .sig .finished, .loop]).out = [.got (some 3)] :=
  (C51_result [.loop, .dev (some 3), .sig .finished, .loop] (by decide) (some 3)).2 ⟨[.loop, .dev (some 3)], [.loop], rfl, by decide, by decide⟩
example := C51_complete [.loop, .dev (some 3)] [.loop] (by decide)
example := C51_pending [.loop, .dev (some 3), .loop] (by decide)

example := (C60_server_takes (-1) [.dev [1, 2], .sig .newConnection] .loop (by decide)).2.1 1 (by decide)
example := (C60_server_takes 5 [.time 5, .fire, .dev [1, 2]] .loop (by decide)).2.2 (by decide)
end QCoro.Aw

namespace QCoro.Shared
/-- Three coroutines of two threads ask for the result. -/
def many : List (Op Nat) := [.check 0 .result, .check 1 .result, .subscribe 1, .subscribe 0, .check 1 .result, .finish (.value 42), .subscribe 2]
/-- … and one of them takes it. -/
def takes : List (Op Nat) := [.check 0 .result, .check 1 .take, .subscribe 0, .subscribe 1, .finish (.value 42), .loop 1, .loop 0]
theorem many_log : (exec false many).log = [.suspends ⟨1, 1, .result⟩, .suspends ⟨0, 0, .result⟩, .finished (.value 42), .suspends ⟨2, 1, .result⟩] := by decide
theorem takes_log : (exec false takes).log = [.suspends ⟨0, 0, .result⟩, .suspends ⟨1, 1, .take⟩, .finished (.value 42), .got ⟨1, 1, .take⟩ .resumed (.value 42), .got ⟨0, 0, .result⟩ .resumed .nothing] := by decide
theorem untaken : ¬ Taken (exec false many).log := by rw [many_log]; simp [Taken]
theorem many_only : ∀ t u, Op.check t u ∈ many → u = .result := by intro t u h; simp [many] at h; grind
theorem nobody (t : Nat) : ∀ b ∈ (exec false many).blocked, b.t ≠ t := by rw [show (exec false many).blocked = [] by decide]; simp

example := C83_outcome false takes ([.suspends ⟨0, 0, .result⟩, .suspends ⟨1, 1, .take⟩, .finished (.value 42)] ++ [.got ⟨1, 1, .take⟩ .resumed (.value 42)]) ⟨0, 0, .result⟩ .resumed .nothing [] (by rw [takes_log]; rfl)
example := C83_shared false (many ++ [.loop 1]) (by intro t u h; exact many_only t u (by simpa using h)) (.value 42) (by decide) ⟨1, 1, .result⟩ .resumed (.value 42) (by decide)
example := C83_taken false takes [.suspends ⟨0, 0, .result⟩, .suspends ⟨1, 1, .take⟩, .finished (.value 42)] [] [] ⟨1, 1, .take⟩ ⟨0, 0, .result⟩ .resumed .resumed 42 .nothing (by rw [takes_log]; rfl) rfl
example := (C83_loop false many 1 (.value 42) (by decide) (by decide) untaken (nobody 1) [⟨1, 1, .result⟩, ⟨2, 1, .result⟩] (by decide)).2 _ _ rfl
example := (C83_loop false many 7 (.value 42) (by decide) (by decide) untaken (nobody 7) [] (by decide)).1 rfl
example := (C83_check false many 4 .take (by decide) untaken (nobody 4)).1 (by decide)
example := (C83_check false ([.cancel] : List (Op Nat)) 4 .take (by decide) (by rw [show (exec false ([.cancel] : List (Op Nat))).log = [.canceled] by decide]; simp [Taken]) (by rw [show (exec false ([.cancel] : List (Op Nat))).blocked = [] by decide]; simp)).2.1 (by decide) (by decide)
example := (C83_check false ([.check 0 .result] : List (Op Nat)) 4 .take (by decide) (by rw [show (exec false ([.check 0 .result] : List (Op Nat))).log = [] by decide]; simp [Taken]) (by rw [show (exec false ([.check 0 .result] : List (Op Nat))).blocked = [] by decide]; simp)).2.2 (by decide) (by decide)
example := C83_by_own_loop false many (.loop 1) ⟨1, 1, .result⟩ (.value 42) (by decide)
/-- Asks for a result that is taken, suspends for good. -/
def late : List (Op Nat) := takes.take 6 ++ [.check 2 .result, .subscribe 2]
theorem late_log : (exec false late).log = [.suspends ⟨0, 0, .result⟩, .suspends ⟨1, 1, .take⟩, .finished (.value 42), .got ⟨1, 1, .take⟩ .resumed (.value 42), .suspends ⟨2, 2, .result⟩] := by decide
example (ops : List (Op Nat)) (h : How) (o : Out Nat) (post : List (Ev Nat)) (hl : (exec false (late ++ ops)).log = (exec false late).log ++ post) :
    .got ⟨2, 2, .result⟩ h o ∉ (exec false (late ++ ops)).log := by
  intro hw
  exact C83_after_take_hangs (late ++ ops) [.suspends ⟨0, 0, .result⟩, .suspends ⟨1, 1, .take⟩, .finished (.value 42), .got ⟨1, 1, .take⟩ .resumed (.value 42)] post ⟨2, 2, .result⟩
    (by rw [hl, late_log]; rfl) ⟨⟨1, 1, .take⟩, .resumed, 42, by simp, rfl⟩ h o hw
example := C83_drains false 1 (.value 42) (by simp) 2 many many_only (by decide) (nobody 1) (by decide)
end QCoro.Shared

namespace QCoro.SharedReply
/-- Three coroutines await a reply; the first one deletes it later, as the documentation shows. -/
def three : List Op := [.await, .await, .await, .finish, .loop, .deleteLater]
example := C83_reply_answer three [.suspends 0, .suspends 1, .suspends 2, .finished] [] 0 false true (by decide)
example := C83_reply_drains three (by decide)
example := C83_reply_destroyed_hangs [.await, .await, .destroy, .loop, .finish] [.suspends 0, .suspends 1] [] (by decide) (by decide)
example := C83_reply_deleteLater (three ++ [.loop]) (by decide) (by
  intro a b e
  match a, e with
  | [_, _, _, _, _], e => simp [three] at e; simp [← e.2.2.2.1]
  | [], e | [_], e | [_, _], e | [_, _, _], e | [_, _, _, _], e | [_, _, _, _, _, _], e => simp [three] at e
  | _ :: _ :: _ :: _ :: _ :: _ :: _ :: r, e => simp [three] at e) 1 true (by decide)
end QCoro.SharedReply

namespace QCoro.Timers
/-- Two coroutines wait, one timeout. -/
def two : List Op := [.setActive true, .await, .await, .timeout true, .next, .next, .next]
theorem two_log : (exec two).log = [.waits 0, .waits 1, .emission 0, .resumed 0 0, .resumed 1 0, .done 0] := by decide
example := C78_by_a_later_timeout (ops := two) (pre := [.waits 0, .waits 1, .emission 0, .resumed 0 0]) (k := 1) (e := 0) (post := [.done 0]) two_log
example := C78_one_timeout_continues_all (ops := two) (pre := [.waits 0, .waits 1]) (mid := [.resumed 0 0, .resumed 1 0]) (e := 0) (post := []) two_log (by decide)
example : [0, 1] = suspended [.waits 0, .waits 1] :=
  C78_exactly_those (ops := two) (pre := [.waits 0, .waits 1]) (mid := [.resumed 0 0, .resumed 1 0]) (e := 0) (post := []) two_log (by decide) (by simp)
example := C78_destroyed_strands (ops := [.setActive true, .await, .await, .timeout true, .next, .destroy, .next]) (pre := [.waits 0, .waits 1, .emission 0, .resumed 0 0]) (post := [.done 0]) (by decide)
example := C78_progress (two.take 5) (pre := [.waits 0, .waits 1]) (mid := [.resumed 0 0]) (e := 0) (by decide) (by decide)
end QCoro.Timers
