import Verif.Wait.More
/-! # The waiting functions only look at the object they wait for

Every `waitFor…` is checked to leave the device exactly as it and its environment make it: until (and including) the step in which
the call returns, the device is what it would be without the call. -/
namespace QCoro.Wait
variable {ρ δ β : Type}

/-- Specification: the call never changes the device `d` it was made for. Specification vocabulary, no counterpart in /repo. -/
structure Leaves (c : Call ρ δ β) (t : Int) (d : δ) : Prop where
  atCall : c.dev t d [] = some d
  whileWaiting : ∀ ops op, c.out t d ops = none → c.dev t d (ops ++ [op]) = device (some d) (ops ++ [op])

theorem leaves_ret (r : Res β) (t : Int) (d : δ) : Leaves (.ret r (some d) : Call ρ δ β) t d :=
  ⟨rfl, fun _ _ h => by simp [Call.out] at h⟩

theorem leaves_wait (h : Helper DSig ρ) (k : Cont ρ δ β) (hk : ∀ r dv, (k r dv).2 = dv) (t : Int) (d : δ) : Leaves (.wait h k) t d := by
  refine ⟨rfl, fun ops op h0 => ?_⟩
  show (run h k t d (ops ++ [op])).dev = _
  have h0 : (run h k t d ops).out = none := h0
  cases h1 : (run h k t d (ops ++ [op])).out with
  | none => exact ((inv_run h k t d (ops ++ [op])).pend h1).1
  | some x =>
    obtain ⟨r, _, e2, e3⟩ := returns h k t d ops op h0 h1
    rw [e2, hk]
    have hop : op = .deliver ∨ op = .fire := by
      cases r with
      | some v => exact Or.inl e3.1
      | none => exact Or.inr e3.2.2.1
    cases he : exists? ops with
    | true => rw [device_append, he]; rcases hop with rfl | rfl <;> simp [device]
    | false => rw [device_append, he, device_none _ he]; rfl

/-- C38. `waitForReadyRead` takes nothing from the device. -/
theorem C38_leaves_device (d : Dev) (t : Int) : Leaves (waitForReadyRead (some d)) t d := by
  unfold waitForReadyRead
  dsimp only
  repeat' split
  all_goals first | exact leaves_ret _ t d | exact leaves_wait _ _ (fun _ _ => rfl) t d

/-- C39. `waitForBytesWritten` neither. -/
theorem C39_leaves_device (d : Dev) (t : Int) : Leaves (waitForBytesWritten (some d)) t d := by
  unfold waitForBytesWritten
  dsimp only
  repeat' split
  all_goals first | exact leaves_ret _ t d | exact leaves_wait _ _ (fun _ _ => rfl) t d

/-- C41. Process waits. -/
theorem C41_leaves_process (p : ProcState) (t : Int) : Leaves (procWaitForStarted (some p)) t p ∧ Leaves (procWaitForFinished (some p)) t p ∧
    ∀ p', Leaves (procStart (some p) p') t p' := by
  refine ⟨?_, ?_, fun p' => ?_⟩ <;> simp only [procWaitForStarted, procWaitForFinished, procStart] <;> split
  all_goals first | exact leaves_ret _ t _ | exact leaves_wait _ _ (fun _ _ => rfl) t _

/-- C42. Thread waits (both checks seeing the thread in the same state). -/
theorem C42_leaves_thread (s : ThState) (t : Int) : Leaves (thWaitForStarted s s) t s ∧ Leaves (thWaitForFinished s s) t s := by
  refine ⟨?_, ?_⟩ <;> simp only [thWaitForStarted, thWaitForFinished] <;> repeat' split
  all_goals first | exact leaves_ret _ t _ | exact leaves_wait _ _ (fun _ _ => rfl) t _

/-- C44. Socket waits. -/
theorem C44_leaves_socket (s : TcpState) (t : Int) : Leaves (tcpWaitForConnected (some s)) t s ∧ Leaves (tcpWaitForDisconnected (some s)) t s ∧
    ∀ s', Leaves (tcpConnect (some s) s') t s' := by
  refine ⟨?_, ?_, fun s' => ?_⟩ <;> simp only [tcpWaitForConnected, tcpWaitForDisconnected, tcpConnect] <;> split
  all_goals first | exact leaves_ret _ t _ | exact leaves_wait _ _ (fun _ _ => rfl) t _

/-- C45. Local socket waits. -/
theorem C45_leaves_socket (s : LocalState) (t : Int) : Leaves (locWaitForConnected (some s)) t s ∧ Leaves (locWaitForDisconnected (some s)) t s ∧
    ∀ s', Leaves (locConnect (some s) s') t s' := by
  refine ⟨?_, ?_, fun s' => ?_⟩ <;> simp only [locWaitForConnected, locWaitForDisconnected, locConnect] <;> split
  all_goals first | exact leaves_ret _ t _ | exact leaves_wait _ _ (fun _ _ => rfl) t _

/-- C46. `waitForFinished` of a reply. -/
theorem C46_leaves_reply (f : Bool) (t : Int) : Leaves (replyWaitForFinished (some f)) t f := by
  simp only [replyWaitForFinished]; split
  all_goals first | exact leaves_ret _ t _ | exact leaves_wait _ _ (fun _ _ => rfl) t _

/-- C47. A server that is not listening is left alone (a connection is taken only as `C47` says). -/
theorem C47_not_listening_leaves_server (s : Server) (hs : s.listening = false) (t : Int) : Leaves (waitForNewConnection (some s)) t s := by
  simp only [waitForNewConnection, hs, if_true]; exact leaves_ret _ t _

/-- C49. Timers. -/
theorem C49_leaves_timer (a : Bool) (t : Int) : Leaves (timerWaitForTimeout (some a)) t a := by
  simp only [timerWaitForTimeout]; split
  all_goals first | exact leaves_ret _ t _ | exact leaves_wait _ _ (fun _ _ => rfl) t _

/-- C51. D-Bus calls. -/
theorem C51_leaves_call {ν : Type} (c : Option ν) (t : Int) : Leaves (busCallWait c) t c ∧ Leaves (busReplyWait c) t c := by
  refine ⟨leaves_wait _ _ (fun _ _ => rfl) t _, ?_⟩
  simp only [busReplyWait]; split
  all_goals first | exact leaves_ret _ t _ | exact leaves_wait _ _ (fun _ _ => rfl) t _

/-- C52. Web sockets. -/
theorem C52_leaves_socket (s : TcpState) (sync : List DSig) (t : Int) : Leaves (wsOpen (some s) sync) t s ∧ Leaves (wsPing (some s)) t s := by
  refine ⟨?_, ?_⟩ <;> simp only [wsOpen, wsPing] <;> split
  all_goals first | exact leaves_ret _ t _ | exact leaves_wait _ _ (fun _ _ => rfl) t _

example : (waitForBytesWritten (some { toWrite := 5, buf := [1] })).out 10 { toWrite := 5, buf := [1] } [.dev { toWrite := 2, buf := [1, 2] }, .time 10] = none ∧
    (waitForBytesWritten (some { toWrite := 5, buf := [1] })).dev 10 { toWrite := 5, buf := [1] } [.dev { toWrite := 2, buf := [1, 2] }, .time 10, .fire] =
      some { toWrite := 2, buf := [1, 2] } := by decide

/-- C52. The watcher of `open` reports at most once: its two connections drop each other. -/
theorem C52_open_watcher_emits_once (sync : List DSig) (k : Cont Bool δ β) (t : Int) (d : δ) (ops : List (Op DSig δ)) (hc : noCross ops = true) :
    (Sig.emissions (run (openHelper sync) k t d ops).sg.log).length ≤ 1 := by
  let φ : (Nat → Bool) → Nat := fun live => if live 0 || live 1 then 1 else 0
  refine Nat.le_trans (Nat.le_add_right _ _) (emits_le (openHelper sync) φ ?_ ?_ rfl k t d ops hc)
  · intro c i live hi hl
    unfold openHelper at hi
    dsimp only at hi
    split at hi
    · simp at hi
    · match i, hi with
      | 0, hi => cases hi; simp [φ, hl]
      | 1, hi => cases hi; simp [φ, hl]
  · unfold openHelper Helper.direct; dsimp only; split <;> rfl

example : Sig.emissions (run (openHelper []) (fun r dv => ((Res.ok r : Res (Option Bool)), dv)) (-1) TcpState.connecting
    [.sig .errorOccurred false, .sig (.tcpState .connected) false, .sig (.tcpState .connected) false]).sg.log = [false] := by decide
end QCoro.Wait
