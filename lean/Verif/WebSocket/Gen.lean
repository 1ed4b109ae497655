import Verif.Listener.Props
/-
C53: the message generators of QWebSocket (`qcoro/websockets/qcorowebsocket.cpp:88-139,188-210`).

`watcherGenerator` is an async generator whose body owns a `WebSocketSignalWatcher` and iterates over
`qCoroSignalListener(&watcher, ready, timeout)`.  The model composes the listener model (`Verif.Listener`) with that body:
the listener's consumer is the body, which runs exactly when the user's coroutine asks for a value and transfers straight to it
when it has one, so that "the listener's consumer is running" means that the user's coroutine is running.
-/
set_option linter.unusedSimpArgs false
namespace QCoro.WebSocketGen
open QCoro.Listener (Ev)

/-- What the user of the generator and of the socket can observe. Bookkeeping of the model, no counterpart in /repo. -/
inductive WEv (β : Type)
  | msg (a : β)          -- the socket reports a message (frame)
  | disc                 -- the socket's state changes to something other than ConnectedState
  | next (now : Nat)     -- the consumer executes `co_await gen.begin()` or `co_await ++it`
  | got (a : β)          -- the consumer is given this message
  | ended (now : Nat)    -- the consumer is told the end
  | released             -- the generator's watcher and listener are destroyed
deriving DecidableEq, Repr

/-- The body of `watcherGenerator` (`qcoro/websockets/qcorowebsocket.cpp:119-139`) with its watcher and listener. -/
structure State (β : Type) where
  L : Listener.State (Option β)
  early : List β := []   -- messages reported before the watcher was created

variable {β : Type}

/-- The generator's view of the listener's events: an empty optional is what the watcher makes of a disconnect (`:102-108`), and the
loop (`:127-130`) treats it like the end of the listener. -/
def view : Ev (Option β) → WEv β
  | .emitted (some a) _ => .msg a
  | .emitted none _ => .disc
  | .destroyed _ => .released
  | .next n => .next n
  | .got (some (some a)) _ => .got a
  | .got (some none) n => .ended n
  | .got none n => .ended n
  | .dropped => .released

/-- Bookkeeping of the model, no counterpart in /repo. -/
def State.log (s : State β) : List (WEv β) := s.early.map .msg ++ s.L.log.map view

/-- Was the body just given an end by the listener? The test of the loop (`qcoro/websockets/qcorowebsocket.cpp:127-130`). -/
def isEnd : Ev (Option β) → Bool
  | .got none _ => true
  | .got (some none) _ => true
  | _ => false

/-- … on the last event. -/
def endsNow (l : List (Ev (Option β))) : Bool :=
  match l.getLast? with
  | some e => isEnd e
  | none => false

/-- The body leaves the loop (`:127-130`) and returns: its locals, listener and watcher, are destroyed before the consumer continues. -/
def fin (L : Listener.State (Option β)) : Listener.State (Option β) :=
  if endsNow L.log then Listener.step L .drop else L

/-- Models the environment (application, event loop, operating system) rather than code of /repo. -/
inductive Op (β : Type)
  | msg (a : β)        -- the socket emits the message signal
  | state (connected : Bool)  -- the socket emits stateChanged
  | time (d : Nat)
  | deliver            -- the event loop delivers the next posted event
  | fire               -- the event loop notices that the timer is due
  | next               -- the consumer asks for the next message
  | pause | wake       -- the consumer suspends on something else, and continues
  | drop               -- the consumer destroys the generator
deriving DecidableEq

/-- The slots of the watcher (`:99-108`) exist once the body has started (`:123`: at the first resume, i.e. in `begin()`), see
`QCoro::AsyncGenerator`'s initial suspend. -/
def step (s : State β) : Op β → State β
  | .msg a => if s.L.gen = .fresh then { s with early := s.early ++ [a] } else { s with L := Listener.step s.L (.emit (some a)) }
  | .state c => if s.L.gen = .fresh ∨ c = true then s else { s with L := Listener.step s.L (.emit none) }
  | .time d => { s with L := Listener.step s.L (.time d) }
  | .deliver => { s with L := fin (Listener.step s.L .deliver) }
  | .fire => { s with L := fin (Listener.step s.L .fire) }
  | .next => { s with L := fin (Listener.step s.L .next) }
  | .pause => { s with L := fin (Listener.step s.L .pause) }
  | .wake => { s with L := Listener.step s.L .wake }
  | .drop => { s with L := Listener.step s.L .drop }

/-- Bookkeeping of the model, no counterpart in /repo. -/
def run (t : Int) (ops : List (Op β)) : State β := ops.foldl step { L := { timeout := t } }

theorem run_snoc (t : Int) (ops : List (Op β)) (op : Op β) : run t (ops ++ [op]) = step (run t ops) op := by simp [run]

/-! ### Specification vocabulary -/

/-- Specification vocabulary, no counterpart in /repo. -/
def isNext : WEv β → Bool | .next _ => true | _ => false
/-- What an event says about the socket: a message, or a disconnect. Specification vocabulary, no counterpart in /repo. -/
def report : WEv β → Option (Option β) | .msg a => some (some a) | .disc => some none | _ => none
/-- Specification vocabulary, no counterpart in /repo. -/
def message : WEv β → Option β | .got a => some a | _ => none
/-- How the consumer is told a report: the message, or the end of the generator.
Specification vocabulary, no counterpart in /repo. -/
def answer (now : Nat) : Option β → List (WEv β) | some a => [.got a] | none => [.ended now, .released]
/-- What the socket reported since the consumer's first `begin()`: messages, and `none` for a disconnect.
Specification vocabulary, no counterpart in /repo. -/
def feed (l : List (WEv β)) : List (Option β) :=
  (l.dropWhile (fun e => !isNext e)).filterMap report
/-- The messages given to the consumer. Specification vocabulary, no counterpart in /repo. -/
def obtained (l : List (WEv β)) : List β := l.filterMap message
/-- Is it an answer to the consumer? Specification vocabulary, no counterpart in /repo. -/
def isAnswer : WEv β → Bool | .got _ => true | .ended _ => true | _ => false
/-- The consumer asked at `t0` and has no answer yet. Specification vocabulary, no counterpart in /repo. -/
def Asked (l : List (WEv β)) (t0 : Nat) : Prop := ∃ p q, l = p ++ .next t0 :: q ∧ ∀ e ∈ q, isAnswer e = false

/-! ### The listener inside is an execution of the listener model -/

theorem sim (t : Int) (ops : List (Op β)) : ∃ lops, (run t ops).L = Listener.exec t lops ∧
    ∀ p q, lops = p ++ .pause :: q → ∃ p' q', ops = p' ++ .pause :: q' ∧ (run t p').L = Listener.exec t p := by
  induction ops using snocInd with
  | nil => exact ⟨[], rfl, by simp⟩
  | snoc ops op ih =>
    obtain ⟨lops, e, h⟩ := ih
    have keep : ∀ p q, lops = p ++ .pause :: q → ∃ p' q', ops ++ [op] = p' ++ .pause :: q' ∧ (run t p').L = Listener.exec t p := by
      intro p q hq
      obtain ⟨p', q', h1, h2⟩ := h p q hq
      exact ⟨p', q' ++ [op], by simp [h1], h2⟩
    have ext : ∀ (l : List (Listener.Op (Option β))) (o : Listener.Op (Option β)),
        (∀ p q, l = p ++ .pause :: q → ∃ p' q', ops ++ [op] = p' ++ .pause :: q' ∧ (run t p').L = Listener.exec t p) →
        (o = .pause → ∃ q', ops ++ [op] = ops ++ .pause :: q' ∧ (run t ops).L = Listener.exec t l) →
        (∀ p q, l ++ [o] = p ++ .pause :: q → ∃ p' q', ops ++ [op] = p' ++ .pause :: q' ∧ (run t p').L = Listener.exec t p) := by
      intro l o h1 h2 p q hq
      rcases List.eq_nil_or_concat q with hn | ⟨q', y, hn⟩
      · subst hn
        obtain ⟨h3, h4⟩ := List.append_inj' (s₁ := l) (t₁ := [o]) (s₂ := p) (t₂ := [.pause]) (by simpa using hq) rfl
        simp at h4
        obtain ⟨q', h5, h6⟩ := h2 h4
        exact ⟨ops, q', h5, by rw [h6, h3]⟩
      · subst hn
        obtain ⟨h3, _⟩ := List.append_inj' (s₁ := l) (t₁ := [o]) (s₂ := p ++ .pause :: q') (t₂ := [y]) (by simpa using hq) rfl
        exact h1 p q' h3
    have one : ∀ o : Listener.Op (Option β), (o = .pause → op = .pause) → ∃ l', Listener.step (run t ops).L o = Listener.exec t l' ∧
        ∀ p q, l' = p ++ .pause :: q → ∃ p' q', ops ++ [op] = p' ++ .pause :: q' ∧ (run t p').L = Listener.exec t p := by
      intro o ho
      exact ⟨lops ++ [o], by rw [Listener.exec_snoc, e], ext lops o keep (fun h => ⟨[], by rw [ho h], e⟩)⟩
    have onef : ∀ o : Listener.Op (Option β), (o = .pause → op = .pause) → ∃ l', fin (Listener.step (run t ops).L o) = Listener.exec t l' ∧
        ∀ p q, l' = p ++ .pause :: q → ∃ p' q', ops ++ [op] = p' ++ .pause :: q' ∧ (run t p').L = Listener.exec t p := by
      intro o ho
      obtain ⟨l', e', h'⟩ := one o ho
      unfold fin; split
      · exact ⟨l' ++ [.drop], by rw [Listener.exec_snoc, e'], ext l' .drop h' (by simp)⟩
      · exact ⟨l', e', h'⟩
    rw [run_snoc]
    cases op with
    | msg a => simp only [step]; split; exact ⟨lops, e, keep⟩; exact one (.emit (some a)) (by simp)
    | state c => simp only [step]; split; exact ⟨lops, e, keep⟩; exact one (.emit none) (by simp)
    | time d => exact one (.time d) (by simp)
    | wake => exact one .wake (by simp)
    | drop => exact one .drop (by simp)
    | deliver => exact onef .deliver (by simp)
    | fire => exact onef .fire (by simp)
    | next => exact onef .next (by simp)
    | pause => exact onef .pause (by simp)

/-! ### An end is given only to a running consumer -/

/-- Every end in the log is the last event or followed by the release; signals are logged once the watcher exists; the watcher outlives
the listener. Proof invariant, no counterpart in /repo. -/
structure Fine (l : List (Ev (Option β))) : Prop where
  ends : ∀ p e q, l = p ++ e :: q → isEnd e = true → q = [] ∨ ∃ q', q = .dropped :: q'
  watch : ∀ p a n q, l = p ++ .emitted a n :: q → (∃ m, .next m ∈ p) ∨ .dropped ∈ p
  nodest : ∀ n, .destroyed n ∉ l

/-- An event that may be appended. Proof invariant, no counterpart in /repo. -/
def Fits (l : List (Ev (Option β))) : Ev (Option β) → Prop
  | .emitted _ _ => (∃ m, .next m ∈ l) ∨ .dropped ∈ l
  | .destroyed _ => False
  | _ => True

theorem endsNow_snoc (l : List (Ev (Option β))) (e : Ev (Option β)) : endsNow (l ++ [e]) = isEnd e := by simp [endsNow]

theorem fine_snoc {l : List (Ev (Option β))} {x : Ev (Option β)} (h : Fine l) (hx : endsNow l = false ∨ x = .dropped) (hf : Fits l x) : Fine (l ++ [x]) := by
  constructor
  · intro p e q heq he
    rcases List.eq_nil_or_concat q with hq | ⟨q', y, hq⟩
    · exact .inl hq
    · right
      subst hq
      obtain ⟨h3, h4⟩ := List.append_inj' (s₁ := l) (t₁ := [x]) (s₂ := p ++ e :: q') (t₂ := [y]) (by simpa using heq) rfl
      simp at h4; subst h4
      rcases h.ends p e q' h3 he with hq | ⟨q2, hq⟩
      · subst hq
        rcases hx with hx | hx
        · rw [h3, endsNow_snoc, he] at hx; cases hx
        · exact ⟨[], by simp [hx]⟩
      · exact ⟨q2 ++ [x], by simp [hq]⟩
  · intro p a n q heq
    rcases List.eq_nil_or_concat q with hq | ⟨q', y, hq⟩
    · subst hq
      obtain ⟨h3, h4⟩ := List.append_inj' (s₁ := l) (t₁ := [x]) (s₂ := p) (t₂ := [.emitted a n]) (by simpa using heq) rfl
      simp at h4; subst h4; subst h3; exact hf
    · subst hq
      obtain ⟨h3, h4⟩ := List.append_inj' (s₁ := l) (t₁ := [x]) (s₂ := p ++ .emitted a n :: q') (t₂ := [y]) (by simpa using heq) rfl
      exact h.watch p a n q' h3
  · intro n hn
    simp at hn
    rcases hn with hn | hn
    · exact h.nodest n hn
    · subst hn; exact hf

/-- Proof invariant, no counterpart in /repo. -/
structure Good (s : Listener.State (Option β)) : Prop where
  ub : s.ub = none
  last : endsNow s.log = false
  fine : Fine s.log

/-- Proof invariant, no counterpart in /repo. -/
structure G (s : Listener.State (Option β)) : Prop where
  h : endsNow s.log = true → s.ub = none ∧ s.running = true ∧ s.gen ≠ .gone
  fine : Fine s.log

theorem Good.g {s : Listener.State (Option β)} (h : Good s) : G s := ⟨fun e => (by rw [h.last] at e; cases e), h.fine⟩

theorem Good.emit {s s' : Listener.State (Option β)} (h : Good s) (e : Ev (Option β)) (he : isEnd e = false) (hf : Fits s.log e) (hu : s'.ub = s.ub)
    (hl : s'.log = s.log ++ [e]) : Good s' :=
  ⟨by rw [hu]; exact h.ub, by rw [hl, endsNow_snoc, he], by rw [hl]; exact fine_snoc h.fine (.inl h.last) hf⟩

theorem g_dequeue {s : Listener.State (Option β)} (h : Good s) : G s.dequeue := by
  unfold Listener.State.dequeue
  cases s.queue with
  | nil =>
    dsimp only; unfold Listener.State.toConsumer
    split
    · exact ⟨fun _ => ⟨h.ub, rfl, by simp [Listener.State.emit]⟩, fine_snoc h.fine (.inl h.last) trivial⟩
    · exact ⟨(fun e => by have := h.last; rw [this] at e; cases e), h.fine⟩
  | cons a q =>
    dsimp only; unfold Listener.State.toConsumer
    split
    · exact ⟨fun _ => ⟨h.ub, rfl, by simp [Listener.State.emit]⟩, fine_snoc h.fine (.inl h.last) trivial⟩
    · exact ⟨(fun e => by have := h.last; rw [this] at e; cases e), h.fine⟩

theorem g_awaitQueue {s : Listener.State (Option β)} (h : Good s) : G s.awaitQueue := by
  unfold Listener.State.awaitQueue
  split
  · exact g_dequeue h
  · dsimp only; split <;> exact Good.g ⟨h.ub, h.last, h.fine⟩

theorem g_resumeGen {s : Listener.State (Option β)} (h : Good s) : G s.resumeGen := by
  unfold Listener.State.resumeGen
  split
  · exact g_awaitQueue h
  · exact g_dequeue h
  · exact g_awaitQueue h
  · exact ⟨(fun e => by have := h.last; rw [this] at e; cases e), h.fine⟩
  · exact h.g

theorem g_timeouts : ∀ (n : Nat) {s : Listener.State (Option β)}, G s → G (Listener.State.timeouts n s)
  | 0, s, h => ⟨fun e => h.h e, h.fine⟩
  | n + 1, s, h => by
    unfold Listener.State.timeouts
    split
    · exact h
    · rename_i hu
      split
      · exact ⟨fun e => h.h e, h.fine⟩
      · rename_i hr
        apply g_timeouts n
        apply g_resumeGen
        refine ⟨by simpa using hu, ?_, h.fine⟩
        cases e : endsNow s.log with
        | false => rfl
        | true => exact absurd (h.h e).2.1 hr

/-- After any listener step made from a state in which no end has just been given. -/
theorem g_step {s : Listener.State (Option β)} (h : endsNow s.log = false) (hf : Fine s.log) (op : Listener.Op (Option β)) (hop : op ≠ .destroyObj)
    (hw : ∀ a, op = .emit a → (∃ m, .next m ∈ s.log) ∨ .dropped ∈ s.log) : G (Listener.step s op) := by
  unfold Listener.step
  split
  · exact ⟨fun e => (by rw [h] at e; cases e), hf⟩
  rename_i hu
  have hg : Good s := ⟨by simpa using hu, h, hf⟩
  cases op with
  | emit a =>
    dsimp only
    split
    · have := (hg.emit (s' := s.emit (.emitted a s.now)) (.emitted a s.now) rfl (hw a rfl) rfl rfl)
      split <;> exact Good.g ⟨this.ub, this.last, this.fine⟩
    · exact hg.g
  | destroyObj => exact absurd rfl hop
  | time d => exact Good.g ⟨hg.ub, hg.last, hg.fine⟩
  | deliver =>
    dsimp only; split; exact hg.g; split; exact hg.g
    unfold Listener.State.slot; dsimp only; split
    · exact g_resumeGen ⟨hg.ub, hg.last, hg.fine⟩
    · exact Good.g ⟨hg.ub, hg.last, hg.fine⟩
  | fire =>
    dsimp only; split; exact hg.g; split; exact hg.g; split
    · exact g_timeouts _ (Good.g ⟨hg.ub, hg.last, hg.fine⟩)
    · exact hg.g
  | next =>
    dsimp only; split
    · have : G (({ s with running := false, cwait := true } : Listener.State (Option β)).emit (.next s.now)).resumeGen :=
        g_resumeGen (hg.emit (.next s.now) rfl trivial rfl rfl)
      split
      · exact this
      · exact g_timeouts _ this
    · exact hg.g
  | pause =>
    dsimp only; split
    · exact g_timeouts _ (Good.g ⟨hg.ub, hg.last, hg.fine⟩)
    · exact hg.g
  | wake => dsimp only; split; exact Good.g ⟨hg.ub, hg.last, hg.fine⟩; exact hg.g
  | drop =>
    dsimp only; split
    · exact Good.g (hg.emit .dropped rfl trivial rfl rfl)
    · exact hg.g

/-- `fin` leaves no end as last event, and adds the release exactly if there was one. -/
theorem fin_cases {L : Listener.State (Option β)} (h : G L) :
    (endsNow L.log = false ∧ fin L = L) ∨
    (endsNow L.log = true ∧ (fin L).log = L.log ++ [.dropped] ∧ (fin L).gen = .gone ∧ (fin L).ub = none ∧ (fin L).now = L.now ∧ (fin L).running = true ∧ Fine (fin L).log) := by
  unfold fin
  cases e : endsNow L.log with
  | false => left; simp
  | true =>
    right
    obtain ⟨h1, h2, h3⟩ := h.h e
    have : Listener.step L .drop = ({ L with gen := .gone, conn := false, posted := [], queue := [], timer := none, nconn := 0, pending := 0, awaiting := false } : Listener.State (Option β)).emit .dropped := by
      unfold Listener.step; rw [if_neg (by simp [h1])]; dsimp only; rw [if_pos ⟨h2, h3⟩]
    refine ⟨rfl, ?_⟩
    rw [if_pos rfl, this]
    exact ⟨rfl, rfl, h1, rfl, h2, fine_snoc h.fine (.inr rfl) trivial⟩

theorem step_ub (s : Listener.State (Option β)) (op : Listener.Op (Option β)) (h : s.ub ≠ none) : Listener.step s op = s := by
  unfold Listener.step
  rw [if_pos]
  cases e : s.ub
  · exact absurd e h
  · rfl

/-- Legal histories: nothing is asked or answered after the release. -/
theorem ended_stays {t : Int} (p q : List (Ev (Option β))) (h : (Listener.Spec.after t p).ended = true) : (Listener.Spec.after t (p ++ q)).ended = true := by
  induction q using snocInd with
  | nil => simpa using h
  | snoc q e ih =>
    rw [← List.append_assoc, Listener.Spec.after_snoc]
    cases e with
    | got r n => cases r <;> simp [Listener.Spec.next, ih]
    | _ => simp [Listener.Spec.next, ih]

theorem after_dropped {t : Int} {p q : List (Ev (Option β))} (h : Legal Listener.Spec.next Listener.Spec.ok { timeout := t } (p ++ .dropped :: q))
    (e : Ev (Option β)) (he : e ∈ q) : Listener.isGot e = false ∧ ∀ n, e ≠ .next n := by
  obtain ⟨q1, q2, rfl⟩ := List.append_of_mem he
  have hd : (Listener.Spec.after t (p ++ [.dropped])).ended = true := by rw [Listener.Spec.after_snoc]; rfl
  have hs := ended_stays (p ++ [.dropped]) q1 hd
  have hok : Listener.Spec.ok (Listener.Spec.after t (p ++ [.dropped] ++ q1)) e := h (p ++ [Ev.dropped] ++ q1) e q2 (by simp)
  cases e with
  | got r n =>
    cases r with
    | none => obtain ⟨_, _, _, h2, _⟩ := hok; rw [hs] at h2; cases h2
    | some a => have h2 := hok.2.1; rw [hs] at h2; cases h2
  | next n => have h2 := hok.2; rw [hs] at h2; cases h2
  | _ => exact ⟨rfl, by simp⟩

/-- Proof invariant, no counterpart in /repo. -/
structure WInv (s : State β) : Prop where
  last : endsNow s.L.log = false
  fine : Fine s.L.log

theorem winv_fin {L : Listener.State (Option β)} (h : G L) : endsNow (fin L).log = false ∧ Fine (fin L).log := by
  rcases fin_cases h with ⟨h1, h2⟩ | ⟨_, h2, _, _, _, _, h3⟩
  · rw [h2]; exact ⟨h1, h.fine⟩
  · exact ⟨by rw [h2, endsNow_snoc]; rfl, h3⟩

theorem winv (t : Int) (ops : List (Op β)) : WInv (run t ops) := by
  induction ops using snocInd with
  | nil => exact ⟨rfl, by simp [run], by simp [run], by simp [run]⟩
  | snoc ops op ih =>
    obtain ⟨lops, hs, _⟩ := sim t ops
    have hi := Listener.inv_exec t lops
    have hw := Listener.where_exec t lops
    rw [← hs] at hi hw
    rw [run_snoc]
    generalize run t ops = s at *
    obtain ⟨h1, h2⟩ := ih
    have quiet : ∀ o : Listener.Op (Option β), o ≠ .destroyObj → (∀ a, o ≠ .emit a) → G (Listener.step s.L o) :=
      fun o ho he => g_step h1 h2 o ho (fun a ha => absurd ha (he a))
    have emits : s.L.gen ≠ .fresh → ∀ x, endsNow (Listener.step s.L (.emit x)).log = false ∧ Fine (Listener.step s.L (.emit x)).log := by
      intro hg x
      cases hu : s.L.ub with
      | some u => rw [step_ub _ _ (by simp [hu])]; exact ⟨h1, h2⟩
      | none =>
        have hc : (∃ m, .next m ∈ s.L.log) ∨ .dropped ∈ s.L.log := by
          rcases hw.fresh with h | h | h
          · exact .inl h
          · exact absurd h hg
          · have hp := hi.pos hu
            unfold Listener.Pos at hp; rw [h] at hp
            rcases (Listener.spec_facts _ hi.legal).2.2.2.2.1 hp.2.1 with ⟨n, hn⟩ | hd
            · obtain ⟨p, q, e⟩ := List.append_of_mem hn
              rcases h2.ends p _ q e rfl with hq | ⟨q', hq⟩
              · rw [e, hq, endsNow_snoc] at h1; cases h1
              · right; rw [e, hq]; simp
            · exact .inr hd
        have hG := g_step h1 h2 (.emit x) (by simp) (fun a ha => hc)
        refine ⟨?_, hG.fine⟩
        unfold Listener.step; rw [if_neg (by simp [hu])]; dsimp only
        split
        · split <;> simp [Listener.State.emit, endsNow_snoc, isEnd]
        · exact h1
    have plain : ∀ o : Listener.Op (Option β), o ≠ .destroyObj → (∀ a, o ≠ .emit a) → endsNow (Listener.step s.L o).log = false →
        endsNow (Listener.step s.L o).log = false ∧ Fine (Listener.step s.L o).log :=
      fun o ho he hl => ⟨hl, (quiet o ho he).fine⟩
    cases op with
    | msg a =>
      simp only [step]; split
      · exact ⟨h1, h2⟩
      · rename_i hg; have := emits hg (some a); exact ⟨this.1, this.2⟩
    | state c =>
      simp only [step]; split
      · exact ⟨h1, h2⟩
      · rename_i hg; have := emits (fun h => hg (.inl h)) none; exact ⟨this.1, this.2⟩
    | time d =>
      have := plain (.time d) (by simp) (by simp) (by unfold Listener.step; split <;> exact h1)
      exact ⟨this.1, this.2⟩
    | wake =>
      have := plain .wake (by simp) (by simp) (by unfold Listener.step; split; exact h1; dsimp only; split <;> exact h1)
      exact ⟨this.1, this.2⟩
    | drop =>
      have := plain .drop (by simp) (by simp) (by
        unfold Listener.step; split; exact h1; dsimp only; split
        · simp [Listener.State.emit, endsNow_snoc, isEnd]
        · exact h1)
      exact ⟨this.1, this.2⟩
    | deliver => have := winv_fin (quiet .deliver (by simp) (by simp)); exact ⟨this.1, this.2⟩
    | fire => have := winv_fin (quiet .fire (by simp) (by simp)); exact ⟨this.1, this.2⟩
    | next => have := winv_fin (quiet .next (by simp) (by simp)); exact ⟨this.1, this.2⟩
    | pause => have := winv_fin (quiet .pause (by simp) (by simp)); exact ⟨this.1, this.2⟩

end QCoro.WebSocketGen
