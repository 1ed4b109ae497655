import Verif.Wait.Write
import Verif.Wait.Readers
import Verif.Wait.Servers
import Verif.Wait.Leaves
import Verif.Wait.More
import Verif.Wait.Long
import Verif.Wait.Reply
/-! # The theorems about waits applied to concrete runs: their hypotheses are met -/
namespace QCoro.Wait

set_option maxRecDepth 16000

/-! ### local sockets -/

/-- The socket connects after 20 ms. -/
def locOk : List (Op DSig LocalState) := [.sig (.localState .connecting) false, .time 20, .sig (.localState .connected) false, .sig .connected false]
example := C45_waitForConnected .connecting (by decide) 100 (locOk ++ [.deliver]) (by decide) (.ok true) (by decide)
example := C45_waitForConnected .connecting (by decide) 100 [.time 100, .fire] (by decide) (.ok false) (by decide)
example := C45_complete .connecting (by decide) 100 locOk (by decide) true (by decide) (by decide)
example (ops' : List (Op DSig LocalState)) : (locWaitForConnected (some .connecting)).out 100 .connecting (locOk ++ [.deliver] ++ ops') = some (.ok true) :=
  C45_once .connecting 100 (locOk ++ [.deliver]) ops' (.ok true) (by decide)
example : (locWaitForConnected (some .connecting)).out 100 .connecting ([.time 100] ++ [.fire]) = some (.ok false) := C45_timeout .connecting (by decide) 100 [.time 100] (by decide) (by decide) (by decide)
example := C45_pending .connecting (by decide) 100 [.sig (.localState .connecting) false, .time 20] (by decide) (by decide) (by decide)

/-! ### devices -/

theorem wr : waitsRead { kind := .tcp .connected } := by simp [waitsRead]
theorem wr0 : waitsRead {} := by simp [waitsRead]
/-- Data arrives. -/
def arrive : List (Op DSig Dev) := [.time 3, .dev { buf := [1, 2] }, .sig .readyRead false]
example := C38_waits { kind := .tcp .connected } wr 50
example := C38_exact_unless_closed {} wr0 50 (arrive ++ [.deliver]) (by simp [arrive, heard]) (.ok true) (by decide)

example := C35_waits Dev.readAll {} wr0 50 arrive .deliver (.ok [1, 2]) (by decide) (by decide)
example := C35_waits Dev.readAll {} wr0 50 [.time 50] .fire (.ok []) (by decide) (by decide)
example := C35_once Dev.readAll {} 50 (arrive ++ [.deliver]) [.time 4] (.ok [1, 2]) (by decide)
example := C35_complete Dev.readAll {} wr0 (-1) arrive .readyRead (by decide) (by simp [endsRead])
example : (readWith Dev.readAll (some {})).out 50 {} ([.time 50] ++ [.fire]) = some (.ok []) := C35_timeout Dev.readAll {} wr0 50 [.time 50] (by decide) (by decide) (by decide)
example := C35_pending Dev.readAll {} wr0 50 [.time 49, .dev { buf := [1] }] (by simp [heard]) (by decide)

theorem ww : waitsWrite { toWrite := 5 } := by simp [waitsWrite]
/-- Bytes are written. -/
def wrote : List (Op DSig Dev) := [.sig (.bytesWritten 3) false, .sig (.bytesWritten 2) false]
example := C39_waits { toWrite := 5 } ww (-1) (wrote ++ [.deliver]) (.ok (some 3)) (by decide)
example := C39_first { toWrite := 5 } ww (by intro f; simp) (-1) (wrote ++ [.deliver]) (by decide) (.ok (some 3)) (by decide)
example := C39_complete { toWrite := 5 } ww (-1) wrote (.bytesWritten 3) (by decide) (by simp [reportsWritten]) (by decide)
example := C39_timeout { toWrite := 5 } ww 10 [.time 10] (by decide) (by decide) (by decide)
example := C39_once { toWrite := 5 } ww (-1) (wrote ++ [.deliver]) [.time 4] (.ok (some 3)) (by decide)

example := C36_once (readHelper .plain) (fun r dv => ((Res.ok r : Res (Option Bool)), dv)) (-1) () [.sig .readyRead false, .deliver] [.time 4] (.ok (some true)) (by decide)
example := C36_first (readHelper .plain) (by decide) (-1) () [.sig .readyRead false, .deliver] (by decide) (some true) (by decide)
example := C36_first_read (.tcp .connected) (by intro f; simp) (-1) () [.sig .readyRead false, .sig (.tcpState .closing) false, .deliver] (by decide) (some true) (by decide)
example := C36_first_write (.tcp .connected) (by intro f; simp) (-1) () [.sig (.bytesWritten 4) false, .deliver] (by decide) (some 4) (by decide)
example := C36_emits_once (fun r dv => ((Res.ok none : Res (Option Bool)), dv)) (fun r dv => ((Res.ok none : Res (Option Bool)), dv)) (-1) () [.sig .readyRead false, .sig .aboutToClose false] (by decide)
example := C36_socket_emits_at_most_twice (.tcp .connected) (by intro f; simp) (fun r dv => ((Res.ok none : Res (Option Bool)), dv)) (fun r dv => ((Res.ok none : Res (Option Bool)), dv)) (-1) ()
  [.sig .readyRead false, .sig (.tcpState .closing) false] (by decide)
example := C36_socket_reports (.tcp .connected) (.inl ⟨_, rfl⟩) (fun r dv => ((Res.ok none : Res (Option Bool)), dv)) (fun r dv => ((Res.ok none : Res (Option Bool)), dv)) (-1) ()
  [.sig .readyRead false, .sig (.tcpState .closing) false] (by decide)

/-! ### write -/

/-- The first portion of 5 accepted bytes is confirmed. -/
def part : List WOp := [.ev (.sig (.bytesWritten 2) false), .ev (.dev { toWrite := 3 })]
example := C37_result 5 (some { toWrite := 5 }) (portions 5 [2, 3]) 5 (by decide)
example := C37_waits_for_all 5 (some { toWrite := 5 }) part 0 { toWrite := 5 } [.sig (.bytesWritten 2) false, .dev { toWrite := 3 }] (by decide)
example : (write 5 (some { toWrite := 5 }) (part ++ [.ev .deliver])).w = .waiting (0 + 2) { toWrite := 3 } [] :=
  ((C37_round 5 (some { toWrite := 5 }) part 0 2 { toWrite := 5 } [.sig (.bytesWritten 2) false, .dev { toWrite := 3 }] .deliver (by decide) (by decide)).2.2 (by decide) (by decide)).2 _ (by decide) |>.1
    (by simp [waitsWrite])
example := C37_nothing_accepted 0 (by decide) { toWrite := 5 }
example := C37_first_round 5 (by decide) { toWrite := 5 }
example := C37_once 5 (some { toWrite := 5 }) (portions 5 [2, 3]) part (.ok 5) (by decide)
example := C37_close_ends 5 2 (by decide) 3 (by decide)
example (os' : List WOp) : ∃ os : List WOp, (write 5 (some { toWrite := 5 }) (os ++ os')).w = .spin := by
  obtain ⟨os, h⟩ := C37_spins
  exact ⟨os, C37_spin_forever 5 _ os os' h⟩

/-! ### servers, processes, sockets, threads -/

/-- A connection arrives and is announced. -/
def comes : List (Op DSig Server) := [.dev { pending := [4] }, .sig .newConnection false]
example := C47_waits {} rfl rfl 100 comes .deliver (.ok (some 4)) (by decide) (by decide)
example := C47_complete {} rfl rfl 100 comes (by decide)
example := C47_timeout {} rfl rfl 100 [.time 100] (by decide) (by decide) (by decide) (by decide)
example := C47_once {} 100 (comes ++ [.deliver]) [.gone] (.ok (some 4)) (by decide)
example (ops' : List (Op DSig Server)) : (waitForNewConnection (some {})).out 100 {} ([.gone] ++ ops') = none := C47_destroyed_hangs {} rfl rfl 100 [.gone] (by decide) (by decide) (by decide) ops'
example := C47_not_listening_leaves_server { listening := false } rfl 100
example : (procWaitForStarted (some .starting)).out (-1) .starting [.sig .errorOccurred false, .dev .notRunning, .time 1000, .deliver, .fire] = none :=
  C41_failed_start_hangs (-1) (by decide) _ (by decide)
example : (tcpWaitForConnected (some .connecting)).out (-1) .connecting [.sig .errorOccurred false, .dev .unconnected, .time 1000, .deliver, .fire] = none :=
  C44_refused_hangs .connecting (by decide) (-1) (by decide) _ (by decide)
example := C42_started_lost (-1) (by decide) [.dev .running, .time 1000, .fire, .deliver] (by decide)
example := C42_finished_lost (-1) (by decide) [.dev .finished, .time 1000, .fire, .deliver] (by decide)
example := C52_open_sync_ok .unconnected [.tcpState .connecting] (by decide)
example : (wsOpen (some .unconnected) [.errorOccurred]).out (-1) .unconnected [.sig (.tcpState .connected) false, .deliver] = none :=
  C52_open_sync_error_hangs .unconnected (by decide) [.errorOccurred] (by simp) (-1) (by decide) _
example := C52_open_sync_deaf .unconnected (by decide) [.errorOccurred] (by decide) 100 [.sig (.tcpState .connected) false, .deliver, .time 100]
example := C52_open_watcher_emits_once [] (fun r dv => ((Res.ok r : Res (Option Bool)), dv)) (-1) TcpState.connecting
    [.sig .errorOccurred false, .sig (.tcpState .connected) false, .sig (.tcpState .connected) false] (by decide)

-- timeouts of more than 2^31 ms, in a QTimer whose interval is an int
example := (C86_calls (waitForReadyRead (some {})) (2 ^ 32 + 5) (by decide) {} [.time 5]).1 (by decide)
example := (C86_calls (waitForReadyRead (some {})) (2 ^ 31) (by decide) {} [.time 5]).2 (by decide)
example := C86_calls_short .narrow (waitForReadyRead (some {})) 100 (by decide) {} [.time 100, .fire]
example := C86_found_hangs {} wr0 (2 ^ 31) (by decide) (by decide) [.time (2 ^ 40), .fire] (by simp [heard])

end QCoro.Wait

namespace QCoro.Sig

/-- A wait with a timeout of 2^32 + 5 ms. -/
def wrap : List (Op Nat) := [.await 0 (.timed (2 ^ 32 + 5)), .time 5]
example := C86_short .narrow ([.await 0 (.timed 5), .time 5, .fire 0] : List (Op Nat)) (by intro th ms h; simp at h; omega)
example := C86_nullopt_only (wrap ++ [.fire 0]) [] [] [] 0 0 0 (2 ^ 32 + 5) 0 5 false (by decide) (by simp)
example := C86_ends wrap (by decide) [] [] 0 0 (2 ^ 32 + 5) 0 (by decide) (by decide) (by decide) (by decide) (by decide) (by decide)
example : (execQ .narrow ([.await 0 (.timed (2 ^ 31)), .time (2 ^ 33), .fire 0] : List (Op Nat))).log ≠ [] ++ .awaited 0 0 (.timed (2 ^ 31)) 0 :: ([] ++ .resumed 0 0 none (2 ^ 33) false :: []) :=
  C86_never _ [] [] [] 0 0 0 (2 ^ 31) 0 (2 ^ 33) false (by decide) (by decide) (by simp)

end QCoro.Sig

namespace QCoro.Wait.Many

set_option maxRecDepth 16000

/-- Call 1 waits; call 0 has been served. -/
theorem demo_waits : Waiting (exec {} (demo.take 6)).log 1 100 {} [.arrived [1, 2, 3, 4, 5], .emitted .readyRead, .passed 3, .returned 0 (.ok [1, 2])] := by
  have e : (exec {} (demo.take 6)).log = [.called 0 (.upTo 2) (-1) (some {})] ++ .called 1 .all 100 (some {}) ::
      [.arrived [1, 2, 3, 4, 5], .emitted .readyRead, .passed 3, .returned 0 (.ok [1, 2])] := by decide
  exact ⟨_, _, e, by intro r; rw [e]; simp⟩
example : taken (exec {} demo).log ++ [] = [] ++ [1, 2, 3, 4, 5] := C69_no_loss {} demo {} (by decide)
example := C69_why {} demo [.called 0 (.upTo 2) (-1) (some {}), .called 1 .all 100 (some {}), .arrived [1, 2, 3, 4, 5], .emitted .readyRead, .passed 3] [.returned 1 (.ok [3, 4, 5])] 0 (.ok [1, 2]) (by decide)
example := C69_once {} demo ((exec {} demo).log.take 6) [] 1 (.ok [3, 4, 5]) (.ok []) (by decide)
example := C69_completes {} (demo.take 6) 1 100 {} _ demo_waits .readyRead (by decide) (by simp [endsRead])
example := C69_not_left_waiting {} (demo.take 6) 1 100 {} _ demo_waits (by decide) (by
  intro p b post h hb
  have e : (exec {} (demo.take 6)).log = [.called 0 (.upTo 2) (-1) (some {}), .called 1 .all 100 (some {}), .arrived [1, 2, 3, 4, 5], .emitted .readyRead, .passed 3, .returned 0 (.ok [1, 2])] := by decide
  rw [e] at h
  match p with
  | [] => simp at h
  | [_] => simp at h
  | [_, _] => simp at h; rw [← h.2.2.2]; simp
  | [_, _, _] => simp at h
  | [_, _, _, _] => simp at h
  | [_, _, _, _, _] => simp at h
  | _ :: _ :: _ :: _ :: _ :: _ :: p => simp at h)
/-- The second call times out. -/
def slow : List Op := [.call (.upTo 2) (-1), .call .all 100, .time 100]
theorem slow_waits : Waiting (exec {} slow).log 1 100 {} [.passed 100] := by
  have e : (exec {} slow).log = [.called 0 (.upTo 2) (-1) (some {})] ++ .called 1 .all 100 (some {}) :: [.passed 100] := by decide
  exact ⟨_, _, e, by intro r; rw [e]; simp⟩
example : .returned 1 (.ok []) ∈ (exec {} (slow ++ [.fire 1])).log := C69_timeout {} slow 1 100 {} _ slow_waits (by decide) (by decide)

end QCoro.Wait.Many

namespace QCoro.Wait.Serve

set_option maxRecDepth 16000

/-- Call 1 waits; call 0 has been served. -/
theorem demo_waits : Waiting (exec {} (demo.take 8)).log 1 100 {} [.arrived 7, .emitted .newConnection, .arrived 8, .emitted .newConnection, .passed 3, .returned 0 (.ok (some 7))] := by
  have e : (exec {} (demo.take 8)).log = [.called 0 (-1) (some {})] ++ .called 1 100 (some {}) ::
      [.arrived 7, .emitted .newConnection, .arrived 8, .emitted .newConnection, .passed 3, .returned 0 (.ok (some 7))] := by decide
  exact ⟨_, e, by intro r; rw [e]; simp⟩
example : taken (exec {} demo).log ++ [] = [] ++ [7, 8] := C79_no_loss {} demo {} (by decide)
example := C79_why {} demo ((exec {} demo).log.take 7) ((exec {} demo).log.drop 8) 0 (.ok (some 7)) (by decide)
example := C79_once {} demo ((exec {} demo).log.take 8) [] 1 (.ok (some 8)) (.ok none) (by decide)
example := C79_completes {} (demo.take 8) 1 100 {} _ demo_waits (by decide)
example := C79_not_left_waiting {} (demo.take 8) 1 100 {} _ demo_waits (by decide) (by
  intro p c post h
  have e : (exec {} (demo.take 8)).log = [.called 0 (-1) (some {}), .called 1 100 (some {}), .arrived 7, .emitted .newConnection, .arrived 8, .emitted .newConnection, .passed 3, .returned 0 (.ok (some 7))] := by decide
  rw [e] at h
  match p with
  | [] => simp at h
  | [_] => simp at h
  | [_, _] => simp at h; rw [← h.2.2.2]; simp
  | [_, _, _] => simp at h
  | [_, _, _, _] => simp at h; rw [← h.2.2.2.2.2]; simp
  | [_, _, _, _, _] => simp at h
  | [_, _, _, _, _, _] => simp at h
  | [_, _, _, _, _, _, _] => simp at h
  | _ :: _ :: _ :: _ :: _ :: _ :: _ :: _ :: p => simp at h)
/-- The second call times out. -/
def slow : List Op := [.call (-1), .call 100, .time 100]
theorem slow_waits : Waiting (exec {} slow).log 1 100 {} [.passed 100] := by
  have e : (exec {} slow).log = [.called 0 (-1) (some {})] ++ .called 1 100 (some {}) :: [.passed 100] := by decide
  exact ⟨_, e, by intro r; rw [e]; simp⟩
example : .returned 1 (.ok none) ∈ (exec {} (slow ++ [.fire 1])).log := C79_timeout {} slow 1 100 {} _ slow_waits (by decide) (by decide) (by decide)

end QCoro.Wait.Serve

namespace QCoro.Sleep

example := C50_sleepFor 3 1 1000 (by decide) (by decide) [.time 2, .loop, .time 1, .loop, .loop]
example := (C50_sleepFor 3 1 1000 (by decide) (by decide) [.time 2, .loop, .time 1, .loop, .loop]).1 (by decide)
example := C50_sleepFor_whole_ms 3 1 1000 1 (by decide) (by decide) (by decide) [.time 2, .loop, .time 1, .loop, .loop] (by decide)
example := (C50_sleepUntil_steady 1005 1000 1 1000 (by decide) (by decide) [.time 4, .loop, .time 1, .loop]).1 (by decide)
example := C50_sleepUntil_past 990 1000 1 1000 (by decide) (by decide) []
example := C50_sleepUntil_just_past 999900 1000000 1 1000000 (by decide) (by decide) (by decide) []

example := C86_sleep_short .narrow 3 1 1000 [.time 3, .loop] (by decide) (by decide)

end QCoro.Sleep
