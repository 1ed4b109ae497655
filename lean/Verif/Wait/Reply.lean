import Verif.Wait.Props
/-
C36 for replies: `ReplyWaitSignalHelper` (`qcoro/network/qcoronetworkreply.cpp:11-38`), exactly.
-/
namespace QCoro.Wait
open Sig (emissions answer)
variable {ρ δ β : Type}

/-- What has become of the notifications of a reply: does the reply exist, is the helper still subscribed, which
notifications are posted and not yet delivered, what the helper has reported (`ready`). -/
structure Notes (ρ : Type) where
  exist : Bool := true
  subscribed : Bool := true
  posted : List ρ := []
  reported : List ρ := []

/-- `says` is what a signal says to somebody waiting. A signal of an existing reply to which the helper is subscribed is
reported at once, except that errorOccurred and finished, and whatever is emitted on another thread, is posted and reported
when the event loop delivers it. The first report ends the subscription; what is posted by then is reported nevertheless. -/
def Notes.next (says : DSig → Option ρ) (n : Notes ρ) : Op DSig δ → Notes ρ
  | .sig x cross =>
    match says x with
    | none => n
    | some v =>
      if n.exist && n.subscribed then
        if cross || decide (x = .errorOccurred) || decide (x = .finished) then { n with posted := n.posted ++ [v] }
        else { n with reported := n.reported ++ [v], subscribed := false }
      else n
  | .handler =>
    match n.posted with
    | [] => n
    | v :: q => { n with posted := q, reported := n.reported ++ [v], subscribed := false }
  | .gone => { n with exist := false }
  | _ => n

def notes (says : DSig → Option ρ) (ops : List (Op DSig δ)) : Notes ρ := ops.foldl (Notes.next says) {}

theorem notes_snoc (says : DSig → Option ρ) (ops : List (Op DSig δ)) (op) : notes says (ops ++ [op]) = (notes says ops).next says op := by
  simp [notes]

/-- The activations caused by one signal. -/
def Fold (δ β : Type) (h : Helper DSig ρ) (says : DSig → Option ρ) : Prop :=
  ∀ (s : State DSig ρ δ β) x cross, match says x with
    | none => h.conns.zipIdx.foldl (State.activate h x cross) s = s
    | some v => ∃ i c, h.conns[i]? = some c ∧ i < 4 ∧
        h.conns.zipIdx.foldl (State.activate h x cross) s =
          if s.live i then (if cross || decide (x = .errorOccurred) || decide (x = .finished) then { s with hq := s.hq ++ [(i, v)] } else s.ready c v) else s

/-- A helper like that of replies: four connections, every handler drops all of them. -/
structure Like (δ β : Type) (h : Helper DSig ρ) (says : DSig → Option ρ) : Prop where
  own : h.own = false
  fold : Fold δ β h says
  disc : ∀ (i : Nat) c, h.conns[i]? = some c → ∀ j < 4, j ∈ c.disc
  four : h.conns.length = 4

theorem conns4 {α : Type} {a b c d : α} {i : Nat} {x : α} (h : [a, b, c, d][i]? = some x) : x = a ∨ x = b ∨ x = c ∨ x = d := by
  match i, h with
  | 0, h => left; simpa using h.symm
  | 1, h => right; left; simpa using h.symm
  | 2, h => right; right; left; simpa using h.symm
  | 3, h => right; right; right; simpa using h.symm

theorem reply_read_like (f : Bool) : Like δ β (readHelper (.reply f)) (reportsRead (.reply f)) := by
  refine ⟨rfl, ?_, ?_, rfl⟩
  · intro s x cross
    cases x <;> simp only [reportsRead]
    case readyRead => exact ⟨0, _, rfl, by omega, by simp [readHelper, helper, baseConns, State.activate, onReadyRead]⟩
    case aboutToClose => exact ⟨1, _, rfl, by omega, by simp [readHelper, helper, baseConns, State.activate, onReadyRead]⟩
    case errorOccurred => exact ⟨2, _, rfl, by omega, by simp [readHelper, helper, baseConns, State.activate, onReadyRead]⟩
    case finished => exact ⟨3, _, rfl, by omega, by simp [readHelper, helper, baseConns, State.activate, onReadyRead]⟩
    all_goals simp [readHelper, helper, baseConns, State.activate, onReadyRead]
  · intro i c hc j hj
    have : c.disc.contains 0 = true ∧ c.disc.contains 1 = true ∧ c.disc.contains 2 = true ∧ c.disc.contains 3 = true := by
      rcases conns4 hc with rfl | rfl | rfl | rfl <;> decide
    match j, hj with
    | 0, _ => simpa using this.1
    | 1, _ => simpa using this.2.1
    | 2, _ => simpa using this.2.2.1
    | 3, _ => simpa using this.2.2.2

theorem reply_write_like (f : Bool) : Like δ β (writeHelper (.reply f)) (reportsWritten (.reply f)) := by
  refine ⟨rfl, ?_, ?_, rfl⟩
  · intro s x cross
    cases x <;> simp only [reportsWritten]
    case bytesWritten => exact ⟨0, _, rfl, by omega, by simp [writeHelper, helper, baseConns, State.activate, onBytesWritten]⟩
    case aboutToClose => exact ⟨1, _, rfl, by omega, by simp [writeHelper, helper, baseConns, State.activate, onBytesWritten]⟩
    case errorOccurred => exact ⟨2, _, rfl, by omega, by simp [writeHelper, helper, baseConns, State.activate, onBytesWritten]⟩
    case finished => exact ⟨3, _, rfl, by omega, by simp [writeHelper, helper, baseConns, State.activate, onBytesWritten]⟩
    all_goals simp [writeHelper, helper, baseConns, State.activate, onBytesWritten]
  · intro i c hc j hj
    have : c.disc.contains 0 = true ∧ c.disc.contains 1 = true ∧ c.disc.contains 2 = true ∧ c.disc.contains 3 = true := by
      rcases conns4 hc with rfl | rfl | rfl | rfl <;> decide
    match j, hj with
    | 0, _ => simpa using this.1
    | 1, _ => simpa using this.2.1
    | 2, _ => simpa using this.2.2.1
    | 3, _ => simpa using this.2.2.2

/-- The machine and the specification agree while the call is pending. -/
structure Agree (n : Notes ρ) (s : State DSig ρ δ β) : Prop where
  exist : n.exist = s.dev.isSome
  sub : ∀ i < 4, s.live i = n.subscribed
  posted : s.hq.map Prod.snd = n.posted
  idx : ∀ p ∈ s.hq, p.1 < 4
  rep : emissions s.sg.log = n.reported

theorem agree_run {h : Helper DSig ρ} {says} (hl : Like δ β h says) (k : Cont ρ δ β) (t : Int) (d : δ) (ops : List (Op DSig δ))
    (ho : (run h k t d ops).out = none) : Agree (notes says ops) (run h k t d ops) := by
  induction ops using snocInd with
  | nil =>
    refine ⟨rfl, fun _ _ => rfl, rfl, ?_, ?_⟩
    · intro p hp; simp [run, start] at hp
    · simp [run, start, notes, Sig.one, Sig.exec, Sig.step, Sig.State.emit]
  | snoc l op ih =>
    have hon : (run h k t d l).out = none := by
      cases hx : (run h k t d l).out with
      | none => rfl
      | some r => rw [run_snoc] at ho; simp [step, hx] at ho
    obtain ⟨a1, a2, a3, a4, a5⟩ := ih hon
    have hi := inv_run h k t d l
    have hs : Single t (run h k t d l) := hi.sg
    have hal : (run h k t d l).sg.alive = true := by rw [(hi.pend hon).2.1, hl.own]; rfl
    rw [run_snoc] at ho ⊢
    rw [notes_snoc]
    clear hi ih
    generalize run h k t d l = s at *
    generalize notes says l = n at *
    have hub := Single.ub hs
    unfold step at ho ⊢
    rw [if_neg (by simp [hon])] at ho ⊢
    have rdy : ∀ (i : Nat) c v, h.conns[i]? = some c → ∀ s0 : State DSig ρ δ β, s0.sg = s.sg → s0.dev = s.dev → s0.live = s.live →
        (emissions (s0.ready c v).sg.log = n.reported ++ [v]) ∧ ∀ j < 4, (s0.ready c v).live j = false := by
      intro i c v hc s0 e1 e2 e3
      have hs0 : Single t s0 := by unfold Single; rw [e1]; exact hs
      have h1 := (act_ready hs0 (by rw [e1]; exact hal) c v).2.1
      refine ⟨by rw [h1, e1, a5], ?_⟩
      intro j hj
      simp [State.ready, hl.disc i c hc j hj]
    cases op with
    | sig x cross =>
      dsimp only
      have hf := hl.fold s x cross
      unfold Notes.next
      cases hsx : says x with
      | none =>
        rw [hsx] at hf
        simp only [hsx]
        dsimp only at hf
        rw [hf, ite_self]; exact ⟨a1, a2, a3, a4, a5⟩
      | some v =>
        rw [hsx] at hf
        simp only [hsx]
        dsimp only at hf
        obtain ⟨i, c, hc, hi4, hfold⟩ := hf
        rw [hfold]
        cases hd : s.dev.isSome with
        | false => simp only [a1, hd, Bool.false_and, Bool.false_eq_true, if_false]; exact ⟨a1, a2, a3, a4, a5⟩
        | true =>
          simp only [a1, hd, Bool.true_and, if_true]
          rw [a2 i hi4]
          cases hsub : n.subscribed with
          | false => simp only [Bool.false_eq_true, if_false]; exact ⟨a1, a2, a3, a4, a5⟩
          | true =>
            simp only [if_true]
            split
            · refine ⟨hd.symm, fun i hi => (a2 i hi).trans hsub, ?_, ?_, a5⟩
              · simp [a3]
              · intro p hp
                simp at hp
                rcases hp with hp | rfl
                · exact a4 p hp
                · exact hi4
            · obtain ⟨r1, r2⟩ := rdy i c v hc s rfl rfl rfl
              exact ⟨hd.symm, r2, a3, a4, r1⟩
    | handler =>
      dsimp only
      unfold Notes.next
      cases hq : s.hq with
      | nil => rw [hq] at a3; simp only [← a3, List.map_nil]; exact ⟨a1, a2, by rw [hq, ← a3], a4, a5⟩
      | cons p q =>
        obtain ⟨i, v⟩ := p
        rw [hq] at a3 a4
        simp only [← a3, List.map_cons]
        have hi4 := a4 (i, v) (by simp)
        obtain ⟨c, hc⟩ : ∃ c, h.conns[i]? = some c := by
          have : i < h.conns.length := by rw [hl.four]; exact hi4
          exact ⟨_, List.getElem?_eq_getElem this⟩
        rw [hc]
        dsimp only
        obtain ⟨r1, r2⟩ := rdy i c v hc { s with hq := q } rfl rfl rfl
        exact ⟨a1, r2, rfl, fun p hp => a4 p (List.mem_cons_of_mem _ hp), r1⟩
    | gone =>
      dsimp only [Notes.next]
      rw [if_neg (by simp [hl.own])]
      exact ⟨rfl, a2, a3, a4, a5⟩
    | dev d' =>
      dsimp only [Notes.next]
      split
      · rename_i hd; exact ⟨by rw [a1, hd]; rfl, a2, a3, a4, a5⟩
      · exact ⟨a1, a2, a3, a4, a5⟩
    | time m =>
      dsimp only [Notes.next]
      exact ⟨a1, a2, a3, a4, by dsimp only; rw [(Sig.step_time s.sg hub m).1]; exact a5⟩
    | deliver =>
      dsimp only [Notes.next] at ho ⊢
      obtain ⟨f1, f2, f3, f4, f5, _⟩ := settle_facts k ({ s with sg := Sig.step s.sg (.process 0) } : State DSig ρ δ β) hon
      exact ⟨by rw [f5 ho]; exact a1, by rw [f3]; exact a2, by rw [f2]; exact a3, by rw [f2]; exact a4, by rw [f1]; dsimp only; rw [(Sig.step_process s.sg 0).1]; exact a5⟩
    | fire =>
      dsimp only [Notes.next] at ho ⊢
      obtain ⟨f1, f2, f3, f4, f5, _⟩ := settle_facts k ({ s with sg := Sig.step s.sg (.fire 0) } : State DSig ρ δ β) hon
      exact ⟨by rw [f5 ho]; exact a1, by rw [f3]; exact a2, by rw [f2]; exact a3, by rw [f2]; exact a4, by rw [f1]; dsimp only; rw [(Sig.step_fire s.sg 0).1]; exact a5⟩

/-- C36. Which `ready` signals the helpers of replies emit, exactly, in order, on every schedule (also when the reply lives on another
thread), as long as the call waits. -/
theorem C36_reply_reports (f : Bool) (k : Cont Bool δ β) (k' : Cont Int δ β) (t : Int) (d : δ) (ops : List (Op DSig δ)) :
    ((run (readHelper (.reply f)) k t d ops).out = none →
      emissions (run (readHelper (.reply f)) k t d ops).sg.log = (notes (reportsRead (.reply f)) ops).reported) ∧
    ((run (writeHelper (.reply f)) k' t d ops).out = none →
      emissions (run (writeHelper (.reply f)) k' t d ops).sg.log = (notes (reportsWritten (.reply f)) ops).reported) :=
  ⟨fun h => (agree_run (reply_read_like f) k t d ops h).rep, fun h => (agree_run (reply_write_like f) k' t d ops h).rep⟩

theorem notes_head {says : DSig → Option ρ} (pre post : List (Op DSig δ)) {v} (h : (notes says pre).reported.head? = some v) :
    (notes says (pre ++ post)).reported.head? = some v := by
  induction post using snocInd with
  | nil => simpa using h
  | snoc l op ih =>
    rw [← List.append_assoc, notes_snoc]
    generalize notes says (pre ++ l) = n at ih
    have hne : n.reported ≠ [] := by intro h; rw [h] at ih; cases ih
    have app : ∀ l, (n.reported ++ l).head? = some v := by intro l; rw [List.head?_append, ih]; rfl
    cases op <;> simp only [Notes.next] <;> try exact ih
    · split
      · exact ih
      · split
        · split
          · exact ih
          · exact app _
        · exact ih
    · split
      · exact ih
      · exact app _

theorem like_first {h : Helper DSig ρ} {says} (hl : Like δ (Option ρ) h says) (t : Int) (d : δ) (ops : List (Op DSig δ)) {r : Option ρ}
    (hr : (run h (fun r dv => (.ok r, dv)) t d ops).out = some (.ok r)) :
    (∃ v, r = some v ∧ (notes says ops).reported.head? = some v) ∨ (r = none ∧ 0 ≤ t ∧ t ≤ elapsed ops) := by
  obtain ⟨pre, op, post, rfl, e2, e3⟩ := out_split h _ t d ops hr
  obtain ⟨r', g1, _, g3⟩ := returns h _ t d pre op e2 e3
  cases g1
  cases r with
  | none => right; exact ⟨rfl, g3.1, by have := g3.2.1; rw [elapsed_append]; omega⟩
  | some v =>
    left
    obtain ⟨_, _, _, hv⟩ := g3
    refine ⟨v, rfl, notes_head pre (op :: post) ?_⟩
    rw [← (agree_run hl _ t d pre e2).rep]; exact hv

/-- C36. What a wait on a reply reports is the first report of its helper: readyRead, bytesWritten and aboutToClose count when they
are emitted, errorOccurred and finished (and everything emitted on another thread) when the event loop delivers them; or nothing
after the timeout. -/
theorem C36_reply_first (f : Bool) (t : Int) (d : δ) (ops : List (Op DSig δ)) :
    (∀ r, (run (readHelper (.reply f)) (fun r dv => (.ok r, dv)) t d ops).out = some (.ok r) →
      (∃ v, r = some v ∧ (notes (reportsRead (.reply f)) ops).reported.head? = some v) ∨ (r = none ∧ 0 ≤ t ∧ t ≤ elapsed ops)) ∧
    (∀ r, (run (writeHelper (.reply f)) (fun r dv => (.ok r, dv)) t d ops).out = some (.ok r) →
      (∃ v, r = some v ∧ (notes (reportsWritten (.reply f)) ops).reported.head? = some v) ∨ (r = none ∧ 0 ≤ t ∧ t ≤ elapsed ops)) :=
  ⟨fun _ h => like_first (reply_read_like f) t d ops h, fun _ h => like_first (reply_write_like f) t d ops h⟩

-- an error is posted, readyRead overtakes it, the error is reported too, later signals are not
example : (notes (δ := Dev) (reportsRead (.reply false)) [.sig .errorOccurred false, .sig .readyRead false, .handler, .sig .readyRead false, .sig .finished false, .handler] : Notes Bool).reported = [true, false] := by decide

/-! ### Sockets -/

/-- A state change of a socket. -/
def isState : DSig → Bool
  | .tcpState _ | .localState _ => true
  | _ => false

/-- What has become of the notifications of a socket: does it exist, is the helper still subscribed to readyRead/bytesWritten and
aboutToClose, and to stateChanged, what it has reported. -/
structure SockNotes (ρ : Type) where
  exist : Bool := true
  base : Bool := true
  state : Bool := true
  reported : List ρ := []

/-- A report of readyRead, bytesWritten or aboutToClose ends the subscription to these three, but not that to stateChanged; a
report of a state change ends all. -/
def SockNotes.next (says : DSig → Option ρ) (n : SockNotes ρ) : Op DSig δ → SockNotes ρ
  | .sig x _ =>
    match says x with
    | none => n
    | some v =>
      if n.exist && (if isState x then n.state else n.base) then
        { n with reported := n.reported ++ [v], base := false, state := n.state && !isState x }
      else n
  | .gone => { n with exist := false }
  | _ => n

def sockNotes (says : DSig → Option ρ) (ops : List (Op DSig δ)) : SockNotes ρ := ops.foldl (SockNotes.next says) {}

/-- A helper like that of sockets: three connections, the third for state changes. -/
structure SockLike (δ β : Type) (h : Helper DSig ρ) (says : DSig → Option ρ) : Prop where
  own : h.own = false
  direct : h.direct = true
  fold : ∀ (s : State DSig ρ δ β) x, match says x with
    | none => h.conns.zipIdx.foldl (State.activate h x false) s = s
    | some v => ∃ i c, h.conns[i]? = some c ∧ (if isState x then i = 2 else i < 2) ∧
        h.conns.zipIdx.foldl (State.activate h x false) s = if s.live i then s.ready c v else s
  disc : ∀ (i : Nat) c, h.conns[i]? = some c → c.disc.contains 0 = true ∧ c.disc.contains 1 = true ∧ (i < 2 → c.disc.contains 2 = false) ∧ (i = 2 → c.disc.contains 2 = true)

theorem conns3 {α : Type} {a b c : α} {i : Nat} {x : α} (h : [a, b, c][i]? = some x) : (i = 0 ∧ x = a) ∨ (i = 1 ∧ x = b) ∨ (i = 2 ∧ x = c) := by
  match i, h with
  | 0, h => left; simpa using h.symm
  | 1, h => right; left; simpa using h.symm
  | 2, h => right; right; simpa using h.symm

theorem sock_read_like (kd : DKind) (hk : (∃ s, kd = .tcp s) ∨ ∃ s, kd = .loc s) : SockLike δ β (readHelper kd) (reportsRead kd) := by
  have hd : ∀ (i : Nat) c, (readHelper kd).conns[i]? = some c → c.disc.contains 0 = true ∧ c.disc.contains 1 = true ∧ (i < 2 → c.disc.contains 2 = false) ∧ (i = 2 → c.disc.contains 2 = true) := by
    intro i c hc
    rcases hk with ⟨s, rfl⟩ | ⟨s, rfl⟩ <;> rcases conns3 hc with ⟨rfl, rfl⟩ | ⟨rfl, rfl⟩ | ⟨rfl, rfl⟩ <;> decide
  rcases hk with ⟨s, rfl⟩ | ⟨s, rfl⟩
  · refine ⟨rfl, rfl, ?_, hd⟩
    intro s x
    cases x
    case readyRead => exact ⟨0, _, rfl, by simp [isState], by simp [readHelper, helper, baseConns, State.activate, onReadyRead]⟩
    case aboutToClose => exact ⟨1, _, rfl, by simp [isState], by simp [readHelper, helper, baseConns, State.activate, onReadyRead]⟩
    case tcpState st =>
      cases st
      case closing => exact ⟨2, _, rfl, by simp [isState], by simp [readHelper, helper, baseConns, State.activate, onReadyRead]⟩
      case unconnected => exact ⟨2, _, rfl, by simp [isState], by simp [readHelper, helper, baseConns, State.activate, onReadyRead]⟩
      all_goals simp [reportsRead, readHelper, helper, baseConns, State.activate, onReadyRead]
    all_goals simp [reportsRead, readHelper, helper, baseConns, State.activate, onReadyRead]
  · refine ⟨rfl, rfl, ?_, hd⟩
    intro s x
    cases x
    case readyRead => exact ⟨0, _, rfl, by simp [isState], by simp [readHelper, helper, baseConns, State.activate, onReadyRead]⟩
    case aboutToClose => exact ⟨1, _, rfl, by simp [isState], by simp [readHelper, helper, baseConns, State.activate, onReadyRead]⟩
    case localState st =>
      cases st
      case connected => simp [reportsRead, readHelper, helper, baseConns, State.activate, onReadyRead]
      all_goals exact ⟨2, _, rfl, by simp [isState], by simp [readHelper, helper, baseConns, State.activate, onReadyRead]⟩
    all_goals simp [reportsRead, readHelper, helper, baseConns, State.activate, onReadyRead]

theorem sock_write_like (kd : DKind) (hk : (∃ s, kd = .tcp s) ∨ ∃ s, kd = .loc s) : SockLike δ β (writeHelper kd) (reportsWritten kd) := by
  have hd : ∀ (i : Nat) c, (writeHelper kd).conns[i]? = some c → c.disc.contains 0 = true ∧ c.disc.contains 1 = true ∧ (i < 2 → c.disc.contains 2 = false) ∧ (i = 2 → c.disc.contains 2 = true) := by
    intro i c hc
    rcases hk with ⟨s, rfl⟩ | ⟨s, rfl⟩ <;> rcases conns3 hc with ⟨rfl, rfl⟩ | ⟨rfl, rfl⟩ | ⟨rfl, rfl⟩ <;> decide
  rcases hk with ⟨s, rfl⟩ | ⟨s, rfl⟩
  · refine ⟨rfl, rfl, ?_, hd⟩
    intro s x
    cases x
    case bytesWritten => exact ⟨0, _, rfl, by simp [isState], by simp [writeHelper, helper, baseConns, State.activate, onBytesWritten]⟩
    case aboutToClose => exact ⟨1, _, rfl, by simp [isState], by simp [writeHelper, helper, baseConns, State.activate, onBytesWritten]⟩
    case tcpState st =>
      cases st
      case closing => exact ⟨2, _, rfl, by simp [isState], by simp [writeHelper, helper, baseConns, State.activate, onBytesWritten]⟩
      case unconnected => exact ⟨2, _, rfl, by simp [isState], by simp [writeHelper, helper, baseConns, State.activate, onBytesWritten]⟩
      all_goals simp [reportsWritten, writeHelper, helper, baseConns, State.activate, onBytesWritten]
    all_goals simp [reportsWritten, writeHelper, helper, baseConns, State.activate, onBytesWritten]
  · refine ⟨rfl, rfl, ?_, hd⟩
    intro s x
    cases x
    case bytesWritten => exact ⟨0, _, rfl, by simp [isState], by simp [writeHelper, helper, baseConns, State.activate, onBytesWritten]⟩
    case aboutToClose => exact ⟨1, _, rfl, by simp [isState], by simp [writeHelper, helper, baseConns, State.activate, onBytesWritten]⟩
    case localState st =>
      cases st
      case connected => simp [reportsWritten, writeHelper, helper, baseConns, State.activate, onBytesWritten]
      all_goals exact ⟨2, _, rfl, by simp [isState], by simp [writeHelper, helper, baseConns, State.activate, onBytesWritten]⟩
    all_goals simp [reportsWritten, writeHelper, helper, baseConns, State.activate, onBytesWritten]

structure SockAgree (n : SockNotes ρ) (s : State DSig ρ δ β) : Prop where
  exist : n.exist = s.dev.isSome
  base : ∀ i < 2, s.live i = n.base
  state : s.live 2 = n.state
  rep : emissions s.sg.log = n.reported

theorem sock_agree {h : Helper DSig ρ} {says} (hl : SockLike δ β h says) (k : Cont ρ δ β) (t : Int) (d : δ) (ops : List (Op DSig δ)) (hc : noCross ops = true)
    (ho : (run h k t d ops).out = none) : SockAgree (sockNotes says ops) (run h k t d ops) := by
  induction ops using snocInd with
  | nil => exact ⟨rfl, fun _ _ => rfl, rfl, by simp [run, start, sockNotes, Sig.one, Sig.exec, Sig.step, Sig.State.emit]⟩
  | snoc l op ih =>
    have hon : (run h k t d l).out = none := by
      cases hx : (run h k t d l).out with
      | none => rfl
      | some r => rw [run_snoc] at ho; simp [step, hx] at ho
    rw [noCross_append, Bool.and_eq_true] at hc
    obtain ⟨a1, a2, a3, a4⟩ := ih hc.1 hon
    have hi := inv_run h k t d l
    have hq := (hi.first hl.direct hc.1).1
    have hs : Single t (run h k t d l) := hi.sg
    have hal : (run h k t d l).sg.alive = true := by rw [(hi.pend hon).2.1, hl.own]; rfl
    rw [run_snoc] at ho ⊢
    rw [show sockNotes says (l ++ [op]) = (sockNotes says l).next says op by simp [sockNotes]]
    clear hi ih
    generalize run h k t d l = s at *
    generalize sockNotes says l = n at *
    have hub := Single.ub hs
    unfold step at ho ⊢
    rw [if_neg (by simp [hon])] at ho ⊢
    cases op with
    | sig x cross =>
      have hcr : cross = false := by cases cross with | false => rfl | true => simp [noCross] at hc
      subst hcr
      dsimp only
      have hf := hl.fold s x
      unfold SockNotes.next
      cases hsx : says x with
      | none =>
        rw [hsx] at hf
        simp only [hsx]
        dsimp only at hf
        rw [hf, ite_self]; exact ⟨a1, a2, a3, a4⟩
      | some v =>
        rw [hsx] at hf
        simp only [hsx]
        dsimp only at hf
        obtain ⟨i, c, hci, hix, hfold⟩ := hf
        rw [hfold]
        cases hd : s.dev.isSome with
        | false => simp only [a1, hd, Bool.false_and, Bool.false_eq_true, if_false]; exact ⟨a1, a2, a3, a4⟩
        | true =>
          have hlive : s.live i = (if isState x then n.state else n.base) := by
            cases hx : isState x <;> simp [hx] at hix ⊢
            · exact a2 i hix
            · rw [hix]; exact a3
          simp only [a1, hd, Bool.true_and, if_true]
          rw [hlive]
          by_cases hsub : (if isState x then n.state else n.base) = true
          · rw [if_pos hsub, if_pos hsub]
            obtain ⟨d0, d1, d2, d3⟩ := hl.disc i c hci
            refine ⟨by simp [State.ready, hd], ?_, ?_, ?_⟩
            · intro j hj
              simp only [State.ready]
              match j, hj with
              | 0, _ => rw [d0]; simp
              | 1, _ => rw [d1]; simp
            · simp only [State.ready, a3]
              cases hx : isState x <;> simp [hx] at hix
              · rw [d2 hix]
              · rw [d3 hix]
            · rw [(act_ready hs hal c v).2.1, a4]
          · rw [if_neg hsub, if_neg hsub]; exact ⟨by simp [a1, hd], a2, a3, a4⟩
    | handler => dsimp only [SockNotes.next]; rw [hq]; exact ⟨a1, a2, a3, a4⟩
    | gone =>
      dsimp only [SockNotes.next]
      rw [if_neg (by simp [hl.own])]
      exact ⟨rfl, a2, a3, a4⟩
    | dev d' =>
      dsimp only [SockNotes.next]
      split
      · rename_i hd; exact ⟨by rw [a1, hd]; rfl, a2, a3, a4⟩
      · exact ⟨a1, a2, a3, a4⟩
    | time m =>
      dsimp only [SockNotes.next]
      exact ⟨a1, a2, a3, by dsimp only; rw [(Sig.step_time s.sg hub m).1]; exact a4⟩
    | deliver =>
      dsimp only [SockNotes.next] at ho ⊢
      obtain ⟨f1, f2, f3, f4, f5, _⟩ := settle_facts k ({ s with sg := Sig.step s.sg (.process 0) } : State DSig ρ δ β) hon
      exact ⟨by rw [f5 ho]; exact a1, by rw [f3]; exact a2, by rw [f3]; exact a3, by rw [f1]; dsimp only; rw [(Sig.step_process s.sg 0).1]; exact a4⟩
    | fire =>
      dsimp only [SockNotes.next] at ho ⊢
      obtain ⟨f1, f2, f3, f4, f5, _⟩ := settle_facts k ({ s with sg := Sig.step s.sg (.fire 0) } : State DSig ρ δ β) hon
      exact ⟨by rw [f5 ho]; exact a1, by rw [f3]; exact a2, by rw [f3]; exact a3, by rw [f1]; dsimp only; rw [(Sig.step_fire s.sg 0).1]; exact a4⟩

/-- C36. Which `ready` signals the helpers of TCP and local sockets emit, exactly, in order, as long as the call waits (signals emitted
on the helper's thread). -/
theorem C36_socket_reports (kd : DKind) (hk : (∃ s, kd = .tcp s) ∨ ∃ s, kd = .loc s) (k : Cont Bool δ β) (k' : Cont Int δ β) (t : Int) (d : δ)
    (ops : List (Op DSig δ)) (hc : noCross ops = true) :
    ((run (readHelper kd) k t d ops).out = none → emissions (run (readHelper kd) k t d ops).sg.log = (sockNotes (reportsRead kd) ops).reported) ∧
    ((run (writeHelper kd) k' t d ops).out = none → emissions (run (writeHelper kd) k' t d ops).sg.log = (sockNotes (reportsWritten kd) ops).reported) :=
  ⟨fun h => (sock_agree (sock_read_like kd hk) k t d ops hc h).rep, fun h => (sock_agree (sock_write_like kd hk) k' t d ops hc h).rep⟩

example : (sockNotes (δ := Dev) (reportsRead (.tcp .connected)) [.sig .readyRead false, .sig .readyRead false, .sig (.tcpState .closing) false,
    .sig (.tcpState .unconnected) false, .sig .aboutToClose false]).reported = [true, false] := by decide
end QCoro.Wait
