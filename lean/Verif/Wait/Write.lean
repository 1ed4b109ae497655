import Verif.Wait.Props
/-
Property C37: `co_await qCoro(device).write(data)` (`qcoro/core/qcoroiodevice.cpp:84-98`).
-/
set_option linter.unusedSimpArgs false
namespace QCoro.Wait

/-- Where the coroutine `write` is. (`qcoro/core/qcoroiodevice.cpp:84-98`). -/
inductive W
  | done (r : Res Int)                                              -- returned
  | spin                                                            -- loops without ever suspending again
  | dangling                                                        -- uses the destroyed wrapper object: undefined behaviour
  | waiting (confirmed : Int) (d : Dev) (ops : List (Op DSig Dev))  -- suspended in waitForBytesWritten(-1), called on `d`, since then `ops`
deriving DecidableEq

/-- The loop head (`:87-95`), `accepted` being what `mDevice->write(buffer)` returned, up to the next suspension.
An iteration whose waitForBytesWritten returns `0` without suspending leaves everything as it was, so the next one does the
same: the thread never gets back to the event loop (devices are not shared between threads).
`wrapper`: the `QCoroIODevice` object on which `write` was called still exists (`waitForBytesWritten` uses `this`). -/
def loop (accepted : Int) (wrapper : Bool) (d : Option Dev) (confirmed : Int) : W :=
  if confirmed < accepted then
    if wrapper then
      match waitForBytesWritten d with
      | .ret .nullDeref _ => .done .nullDeref
      | .ret (.ok none) _ => .done (.ok confirmed)
      | .ret (.ok (some _)) _ => .spin
      | .wait _ _ => (match d with | some d => .waiting confirmed d [] | none => .done .nullDeref)
    else .dangling
  else .done (.ok confirmed)

/-- Events: those of a wait, and the destruction of the wrapper object `qCoro(device)` (a temporary of the calling expression).
Models the environment (application, event loop, operating system) rather than code of /repo. -/
inductive WOp | ev (op : Op DSig Dev) | drop

/-- The coroutine `write` (`qcoro/core/qcoroiodevice.cpp:84-98`) and whether the wrapper it was called on exists. -/
structure WState where
  w : W
  wrapper : Bool := true

/-- One event. The loop of `qcoro/core/qcoroiodevice.cpp:87-95` resumed at `:88`. -/
def wstep (accepted : Int) (s : WState) (o : WOp) : WState :=
  match o with
  | .drop => { s with wrapper := false }
  | .ev op =>
    match s.w with
    | .waiting c d ops =>
      match (waitForBytesWritten (some d)).out (-1) d (ops ++ [op]) with
      | none => { s with w := .waiting c d (ops ++ [op]) }
      | some .nullDeref => { s with w := .done .nullDeref }
      | some (.ok none) => { s with w := .done (.ok c) }
      | some (.ok (some n)) => { s with w := loop accepted s.wrapper ((waitForBytesWritten (some d)).dev (-1) d (ops ++ [op])) (c + n) }
    | _ => s

/-- `write(buffer)` on a device that takes `accepted` bytes of it and is `d` then. (`qcoro/core/qcoroiodevice.cpp:84-98`). -/
def write (accepted : Int) (d : Option Dev) (os : List WOp) : WState :=
  os.foldl (wstep accepted) { w := (match d with | none => .done .nullDeref | some d => loop accepted true (some d) 0) }

theorem write_snoc (a : Int) (d : Option Dev) (os : List WOp) (o : WOp) : write a d (os ++ [o]) = wstep a (write a d os) o := by simp [write]

/-! ### Specification: the amounts reported -/

/-- A waiting call is one that waits. Specification vocabulary, no counterpart in /repo. -/
def WOk (accepted : Int) : W → Prop
  | .waiting c d ops => waitsWrite d ∧ c < accepted ∧ (waitForBytesWritten (some d)).out (-1) d ops = none
  | _ => True

theorem waits_of_wait {d : Dev} {h k} (hw : waitForBytesWritten (some d) = .wait h k) : waitsWrite d := by
  unfold waitForBytesWritten at hw
  dsimp only at hw
  split at hw
  · cases hw
  · rename_i h1
    split at hw
    · cases hw
    · rename_i h2
      refine ⟨by simpa using h1, h2, ?_⟩
      cases hk : d.kind with
      | plain => trivial
      | tcp s => rw [hk] at hw; dsimp only [writeImpl] at hw; by_cases hs : s = .connected
                 · exact hs
                 · rw [if_neg hs] at hw; cases hw
      | loc s => rw [hk] at hw; dsimp only [writeImpl] at hw; by_cases hs : s = .connected
                 · exact hs
                 · rw [if_neg hs] at hw; cases hw
      | reply f => rw [hk] at hw; cases f
                   · rfl
                   · cases hw

theorem out_nil {d : Dev} (h : waitsWrite d) (t : Int) : (waitForBytesWritten (some d)).out t d [] = none := by
  rw [waitForBytesWritten_wait d h]; rfl

/-- What the loop head does. -/
theorem loop_cases (a : Int) (wr : Bool) (d : Option Dev) (c : Int) :
    (a ≤ c ∧ loop a wr d c = .done (.ok c)) ∨
    (c < a ∧ wr = false ∧ loop a wr d c = .dangling) ∨
    (c < a ∧ wr = true ∧ d = none ∧ loop a wr d c = .done .nullDeref) ∨
    (c < a ∧ wr = true ∧ ∃ d', d = some d' ∧
      ((waitsWrite d' ∧ loop a wr d c = .waiting c d' []) ∨
       (¬ waitsWrite d' ∧ (waitForBytesWritten (some d')).out (-1) d' [] = some (.ok none) ∧ loop a wr d c = .done (.ok c)) ∨
       (¬ waitsWrite d' ∧ (waitForBytesWritten (some d')).out (-1) d' [] = some (.ok (some 0)) ∧ loop a wr d c = .spin))) := by
  by_cases hc : c < a
  · right
    cases wr with
    | false => left; exact ⟨hc, rfl, by simp [loop, hc]⟩
    | true =>
      right
      cases d with
      | none => left; exact ⟨hc, rfl, rfl, by simp [loop, hc, waitForBytesWritten]⟩
      | some d =>
        right; refine ⟨hc, rfl, d, rfl, ?_⟩
        by_cases hw : waitsWrite d
        · left; refine ⟨hw, ?_⟩
          unfold loop; rw [if_pos hc, if_pos rfl, waitForBytesWritten_wait d hw]
        · right
          cases hcall : waitForBytesWritten (some d) with
          | wait h k => exact absurd (waits_of_wait hcall) hw
          | ret r dv =>
            have hi := C39_immediate d (-1) []
            have hout : (waitForBytesWritten (some d)).out (-1) d [] = some r := by rw [hcall]; rfl
            have hr : r = .ok none ∨ r = .ok (some 0) := by
              by_cases h1 : d.writable = true
              · by_cases h2 : d.toWrite = 0
                · have := hi.2.2.1 h1 h2; rw [hout] at this; right; exact Option.some.inj this
                · cases hk : d.kind with
                  | plain => exact absurd ⟨h1, h2, by rw [hk]; trivial⟩ hw
                  | tcp s =>
                    by_cases hs : s = .connected
                    · exact absurd ⟨h1, h2, by rw [hk]; exact hs⟩ hw
                    · have := hi.2.2.2.1 h1 h2 (.inl ⟨s, hk, hs⟩); rw [hout] at this; left; exact Option.some.inj this
                  | loc s =>
                    by_cases hs : s = .connected
                    · exact absurd ⟨h1, h2, by rw [hk]; exact hs⟩ hw
                    · have := hi.2.2.2.1 h1 h2 (.inr ⟨s, hk, hs⟩); rw [hout] at this; left; exact Option.some.inj this
                  | reply f => cases f with
                    | false => exact absurd ⟨h1, h2, by rw [hk]⟩ hw
                    | true => have := hi.2.2.2.2 h1 h2 hk; rw [hout] at this; right; exact Option.some.inj this
              · have := hi.2.1 (by simpa using h1); rw [hout] at this; left; exact Option.some.inj this
            rcases hr with rfl | rfl
            · left; refine ⟨hw, by rw [← hcall]; exact hout, ?_⟩; unfold loop; rw [if_pos hc, if_pos rfl, hcall]
            · right; refine ⟨hw, by rw [← hcall]; exact hout, ?_⟩; unfold loop; rw [if_pos hc, if_pos rfl, hcall]
  · left; exact ⟨by omega, by simp [loop, hc]⟩

/-- One completed wait of the loop: called on a device `d` for which it waits, events `ops`, it reported `n`.
Specification vocabulary, no counterpart in /repo. -/
structure Round where
  d : Dev
  ops : List (Op DSig Dev)
  n : Int

/-- The round happened like this: the wait ended in its last event, with `n`, the amount of a bytesWritten of the device (or 0: the device is closing).
Specification vocabulary, no counterpart in /repo. -/
def Round.ok (r : Round) : Prop :=
  waitsWrite r.d ∧ (waitForBytesWritten (some r.d)).out (-1) r.d r.ops = some (.ok (some r.n)) ∧
  ∃ x ∈ heard r.ops, reportsWritten r.d.kind x = some r.n

/-- The device when the round ended. Specification vocabulary, no counterpart in /repo. -/
def Round.after (r : Round) : Option Dev := (waitForBytesWritten (some r.d)).dev (-1) r.d r.ops

/-- Rounds that follow one another, beginning with the device `d`; the device at the end.
Specification vocabulary, no counterpart in /repo. -/
inductive Rounds (d : Option Dev) : List Round → Option Dev → Prop
  | nil : Rounds d [] d
  | snoc {l} (r : Round) : Rounds d l (some r.d) → r.ok → Rounds d (l ++ [r]) r.after

/-- Sum of what the rounds reported. Specification vocabulary, no counterpart in /repo. -/
def total (l : List Round) : Int := (l.map Round.n).sum

theorem total_snoc (l : List Round) (r : Round) : total (l ++ [r]) = total l + r.n := by
  simp [total, List.sum_append]

/-- The device cannot confirm any more: not writable, or a socket that is not connected.
Specification vocabulary, no counterpart in /repo. -/
def cannotWrite (d : Dev) : Prop :=
  d.writable = false ∨ (∃ s, d.kind = .tcp s ∧ s ≠ .connected) ∨ (∃ s, d.kind = .loc s ∧ s ≠ .connected)
/-- The device has nothing left to write (or is a finished reply). Specification vocabulary, no counterpart in /repo. -/
def nothingLeft (d : Dev) : Prop := d.writable = true ∧ (d.toWrite = 0 ∨ d.kind = .reply true)

theorem not_waits {d : Dev} (h : ¬ waitsWrite d) :
    ((waitForBytesWritten (some d)).out (-1) d [] = some (.ok none) → cannotWrite d) ∧
    ((waitForBytesWritten (some d)).out (-1) d [] = some (.ok (some 0)) → nothingLeft d) := by
  have hi := C39_immediate d (-1) []
  by_cases h1 : d.writable = true
  · by_cases h2 : d.toWrite = 0
    · rw [hi.2.2.1 h1 h2]; exact ⟨by simp, fun _ => ⟨h1, .inl h2⟩⟩
    · cases hk : d.kind with
      | plain => exact absurd ⟨h1, h2, by rw [hk]; trivial⟩ h
      | tcp s =>
        by_cases hs : s = .connected
        · exact absurd ⟨h1, h2, by rw [hk]; exact hs⟩ h
        · rw [hi.2.2.2.1 h1 h2 (.inl ⟨s, hk, hs⟩)]; exact ⟨fun _ => .inr (.inl ⟨s, hk, hs⟩), by simp⟩
      | loc s =>
        by_cases hs : s = .connected
        · exact absurd ⟨h1, h2, by rw [hk]; exact hs⟩ h
        · rw [hi.2.2.2.1 h1 h2 (.inr ⟨s, hk, hs⟩)]; exact ⟨fun _ => .inr (.inr ⟨s, hk, hs⟩), by simp⟩
      | reply f => cases f with
        | false => exact absurd ⟨h1, h2, by rw [hk]⟩ h
        | true => rw [hi.2.2.2.2 h1 h2 hk]; exact ⟨by simp, fun _ => ⟨h1, .inr hk⟩⟩
  · have h1 : d.writable = false := by simpa using h1
    rw [hi.2.1 h1]; exact ⟨fun _ => .inl h1, by simp⟩

/-- Invariant: the confirmed amount is the total of the rounds so far. Proof invariant, no counterpart in /repo. -/
def WInv (a : Int) (d : Option Dev) (s : WState) : Prop :=
  WOk a s.w ∧ ∃ (rs : List Round) (e : Option Dev), Rounds d rs e ∧
  match s.w with
  | .waiting c dv _ => total rs = c ∧ e = some dv
  | .done (.ok c) => total rs = c ∧ (a ≤ c ∨ ∃ dv, e = some dv ∧ cannotWrite dv)
  | .done .nullDeref => e = none
  | .spin => total rs < a ∧ ∃ dv, e = some dv ∧ nothingLeft dv
  | .dangling => s.wrapper = false

theorem winv_loop (a : Int) (wr : Bool) (d0 d : Option Dev) (c : Int) (rs : List Round) (hrs : Rounds d0 rs d) (ht : total rs = c) :
    WInv a d0 { w := loop a wr d c, wrapper := wr } := by
  rcases loop_cases a wr d c with ⟨h1, h2⟩ | ⟨h1, h3, h2⟩ | ⟨_, _, hn, h2⟩ | ⟨h1, _, d', hd, ⟨hw, h2⟩ | ⟨hw, h3, h2⟩ | ⟨hw, h3, h2⟩⟩ <;> rw [h2]
  · exact ⟨trivial, rs, d, hrs, ht, .inl h1⟩
  · exact ⟨trivial, rs, d, hrs, h3⟩
  · exact ⟨trivial, rs, d, hrs, hn⟩
  · exact ⟨⟨hw, h1, out_nil hw _⟩, rs, d, hrs, ht, hd⟩
  · exact ⟨trivial, rs, d, hrs, ht, .inr ⟨d', hd, (not_waits hw).1 h3⟩⟩
  · exact ⟨trivial, rs, d, hrs, by omega, d', hd, (not_waits hw).2 h3⟩

theorem winv (a : Int) (d : Option Dev) (os : List WOp) : WInv a d (write a d os) := by
  induction os using snocInd with
  | nil =>
    cases d with
    | none => exact ⟨trivial, [], none, .nil, rfl⟩
    | some d => exact winv_loop a true (some d) (some d) 0 [] .nil rfl
  | snoc l o ih =>
    rw [write_snoc]
    generalize write a d l = s at *
    cases o with
    | drop =>
      unfold wstep
      obtain ⟨h1, rs, e, h2, h3⟩ := ih
      refine ⟨h1, rs, e, h2, ?_⟩
      dsimp only
      cases hw : s.w with
      | done r => rw [hw] at h3; cases r <;> exact h3
      | spin => rw [hw] at h3; exact h3
      | dangling => rfl
      | waiting c d ops => rw [hw] at h3; exact h3
    | ev op =>
      obtain ⟨h1, rs, e, h2, h3⟩ := ih
      unfold wstep
      dsimp only
      cases hw : s.w with
      | done r => dsimp only; exact ⟨by rw [hw]; trivial, rs, e, h2, by rw [hw] at h3 ⊢; exact h3⟩
      | spin => dsimp only; exact ⟨by rw [hw]; trivial, rs, e, h2, by rw [hw] at h3 ⊢; exact h3⟩
      | dangling => dsimp only; exact ⟨by rw [hw]; trivial, rs, e, h2, by rw [hw] at h3 ⊢; exact h3⟩
      | waiting c d' ops =>
        rw [hw] at h1 h3
        obtain ⟨g1, g2, g3⟩ := h1
        obtain ⟨h3, he⟩ := h3
        dsimp only
        cases hout : (waitForBytesWritten (some d')).out (-1) d' (ops ++ [op]) with
        | none => exact ⟨⟨g1, g2, hout⟩, rs, e, h2, h3, he⟩
        | some r =>
          have hc := C39_waits d' g1 (-1) (ops ++ [op]) r hout
          rcases hc with ⟨x, hx, n, hn, rfl⟩ | ⟨_, hneg, _⟩
          · dsimp only
            subst he
            exact winv_loop a s.wrapper d _ (c + n) (rs ++ [⟨d', ops ++ [op], n⟩]) (.snoc ⟨d', ops ++ [op], n⟩ h2 ⟨g1, hout, x, hx, hn⟩) (by rw [total_snoc, h3])
          · omega

/-- The result of write() is the total of the amounts reported by its successive waits, each the amount of a bytesWritten
emitted during that wait (or 0: the device is closing); and it covers all accepted bytes unless the device then stopped being
writable/connected. -/
theorem C37_result (a : Int) (d : Option Dev) (os : List WOp) (n : Int) (h : (write a d os).w = .done (.ok n)) :
    ∃ (rs : List Round) (e : Option Dev), Rounds d rs e ∧ total rs = n ∧ (a ≤ n ∨ ∃ d', e = some d' ∧ cannotWrite d') := by
  obtain ⟨_, rs, e, h2, h3⟩ := winv a d os
  rw [h] at h3
  exact ⟨rs, e, h2, h3⟩

/-- While it waits, not all accepted bytes are confirmed and the device can still confirm some. -/
theorem C37_waits_for_all (a : Int) (d : Option Dev) (os : List WOp) (c : Int) (dv : Dev) (ops : List (Op DSig Dev))
    (h : (write a d os).w = .waiting c dv ops) : c < a ∧ waitsWrite dv ∧ ∃ rs, Rounds d rs (some dv) ∧ total rs = c := by
  obtain ⟨h1, rs, e, h2, h3⟩ := winv a d os
  rw [h] at h1 h3
  obtain ⟨h3, rfl⟩ := h3
  exact ⟨h1.2.1, h1.1, rs, h2, h3⟩

/-- It goes wrong only like this: spinning means that fewer bytes are confirmed than accepted although the device has nothing left;
a null device was destroyed (or null from the start). -/
theorem C37_wrong (a : Int) (d : Option Dev) (os : List WOp) :
    ((write a d os).w = .spin → ∃ rs dv, Rounds d rs (some dv) ∧ total rs < a ∧ nothingLeft dv) ∧
    ((write a d os).w = .done .nullDeref → ∃ rs, Rounds d rs none) ∧
    ((write a d os).w = .dangling → (write a d os).wrapper = false) := by
  obtain ⟨_, rs, e, h2, h3⟩ := winv a d os
  refine ⟨fun h => ?_, fun h => ?_, fun h => ?_⟩ <;> rw [h] at h3
  · obtain ⟨h4, dv, rfl, h5⟩ := h3; exact ⟨rs, dv, h2, h4, h5⟩
  · rw [show e = none from h3] at h2; exact ⟨rs, h2⟩
  · exact h3

theorem nothing_or_cannot {d : Dev} (h : ¬ waitsWrite d) :
    (nothingLeft d → (waitForBytesWritten (some d)).out (-1) d [] = some (.ok (some 0))) ∧
    (¬ nothingLeft d → (waitForBytesWritten (some d)).out (-1) d [] = some (.ok none)) := by
  have hn := not_waits h
  have hi := C39_immediate d (-1) []
  constructor
  · rintro ⟨h1, h2⟩
    by_cases h3 : d.toWrite = 0
    · exact hi.2.2.1 h1 h3
    · exact hi.2.2.2.2 h1 h3 (h2.resolve_left h3)
  · intro hl
    rcases loop_cases 1 true (some d) 0 with ⟨h1, _⟩ | ⟨_, h1, _⟩ | ⟨_, _, h1, _⟩ | ⟨_, _, d', hd, ⟨h2, _⟩ | ⟨_, h2, _⟩ | ⟨_, h2, _⟩⟩
    · omega
    · cases h1
    · cases h1
    · cases hd; exact absurd h2 h
    · cases hd; exact h2
    · cases hd; exact absurd (hn.2 h2) hl

/-- Exactly what happens when a wait of the loop reports `n` more bytes, the device being `e` then: the total is returned once it covers
what was accepted, or if the device cannot write any more; otherwise the loop goes on with the device — or with the destroyed wrapper,
a null device, or without ever suspending again, if the device has nothing left to write. -/
theorem C37_round (a : Int) (d : Option Dev) (os : List WOp) (c n : Int) (dv : Dev) (ops : List (Op DSig Dev)) (op : Op DSig Dev)
    (h : (write a d os).w = .waiting c dv ops) (hn : (waitForBytesWritten (some dv)).out (-1) dv (ops ++ [op]) = some (.ok (some n))) :
    (a ≤ c + n → (write a d (os ++ [.ev op])).w = .done (.ok (c + n))) ∧
    (c + n < a → (write a d os).wrapper = false → (write a d (os ++ [.ev op])).w = .dangling) ∧
    (c + n < a → (write a d os).wrapper = true →
      (device (some dv) ops = none → (write a d (os ++ [.ev op])).w = .done .nullDeref) ∧
      ∀ e, device (some dv) ops = some e →
        (waitsWrite e → (write a d (os ++ [.ev op])).w = .waiting (c + n) e []) ∧
        (nothingLeft e → ¬ waitsWrite e → (write a d (os ++ [.ev op])).w = .spin) ∧
        (¬ nothingLeft e → ¬ waitsWrite e → (write a d (os ++ [.ev op])).w = .done (.ok (c + n)))) := by
  have hok := (winv a d os).1
  rw [h] at hok
  have hdev : (waitForBytesWritten (some dv)).dev (-1) dv (ops ++ [op]) = device (some dv) ops := by
    have h0 := hok.2.2
    rw [waitForBytesWritten_wait dv hok.1] at h0 hn ⊢
    obtain ⟨r, e1, e2, _⟩ := returns _ _ (-1) dv ops op h0 hn
    exact e2
  have hstep : (write a d (os ++ [.ev op])).w = loop a (write a d os).wrapper (device (some dv) ops) (c + n) := by
    rw [write_snoc]; unfold wstep; dsimp only; rw [h]; dsimp only; rw [hn]; dsimp only; rw [hdev]
  rw [hstep]
  generalize (write a d os).wrapper = wr at *
  rcases loop_cases a wr (device (some dv) ops) (c + n) with ⟨h1, h2⟩ | ⟨h1, h3, h2⟩ | ⟨h1, h4, hn', h2⟩ | ⟨h1, h4, d', hd, ⟨hw, h2⟩ | ⟨hw, h3, h2⟩ | ⟨hw, h3, h2⟩⟩ <;> rw [h2]
  · exact ⟨fun _ => rfl, fun h => by omega, fun h => by omega⟩
  · exact ⟨fun h => by omega, fun _ _ => rfl, fun _ h => by rw [h3] at h; cases h⟩
  · exact ⟨fun h => by omega, fun _ h => (by rw [h4] at h; cases h), fun _ _ => ⟨fun _ => rfl, fun e he => by rw [hn'] at he; cases he⟩⟩
  · refine ⟨fun h => by omega, fun _ h => (by rw [h4] at h; cases h), fun _ _ => ⟨fun h => (by rw [hd] at h; cases h), fun e he => ?_⟩⟩
    rw [hd] at he; cases he
    exact ⟨fun _ => rfl, fun _ h => absurd hw h, fun _ h => absurd hw h⟩
  · refine ⟨fun h => by omega, fun _ h => (by rw [h4] at h; cases h), fun _ _ => ⟨fun h => (by rw [hd] at h; cases h), fun e he => ?_⟩⟩
    rw [hd] at he; cases he
    refine ⟨fun h => absurd h hw, fun hl _ => ?_, fun _ _ => rfl⟩
    rw [(nothing_or_cannot hw).1 hl] at h3; cases h3
  · refine ⟨fun h => by omega, fun _ h => (by rw [h4] at h; cases h), fun _ _ => ⟨fun h => (by rw [hd] at h; cases h), fun e he => ?_⟩⟩
    rw [hd] at he; cases he
    refine ⟨fun h => absurd h hw, fun _ _ => rfl, fun hl _ => ?_⟩
    rw [(nothing_or_cannot hw).2 hl] at h3; cases h3

-- such a round: 2 of 5 bytes confirmed, 3 still to be written
example : (write 5 (some { toWrite := 5 }) [.ev (.sig (.bytesWritten 2) false), .ev (.dev { toWrite := 3 })]).w =
      .waiting 0 { toWrite := 5 } [.sig (.bytesWritten 2) false, .dev { toWrite := 3 }] ∧
    (waitForBytesWritten (some { toWrite := 5 })).out (-1) { toWrite := 5 } ([.sig (.bytesWritten 2) false, .dev { toWrite := 3 }] ++ [.deliver]) = some (.ok (some 2)) := by decide

/-- Nothing accepted (an error, or an empty buffer): returns 0 at once. -/
theorem C37_nothing_accepted (a : Int) (ha : a ≤ 0) (d : Dev) : (write a (some d) []).w = .done (.ok 0) := by
  show loop a true (some d) 0 = _
  unfold loop; rw [if_neg (by omega)]

theorem done_stays (a : Int) (d : Option Dev) (os os' : List WOp) (r : Res Int) (h : (write a d os).w = .done r) : (write a d (os ++ os')).w = .done r := by
  induction os' using snocInd with
  | nil => simpa using h
  | snoc l o ih =>
    rw [← List.append_assoc, write_snoc]
    unfold wstep
    cases o with
    | drop => exact ih
    | ev op => rw [ih]; exact ih

/-- The first round: before anything is confirmed. -/
theorem C37_first_round (a : Int) (ha : 0 < a) (d : Dev) :
    (write a none []).w = .done .nullDeref ∧ (waitsWrite d → (write a (some d) []).w = .waiting 0 d []) ∧
    (nothingLeft d → ¬ waitsWrite d → (write a (some d) []).w = .spin) ∧ (¬ nothingLeft d → ¬ waitsWrite d → (write a (some d) []).w = .done (.ok 0)) := by
  refine ⟨rfl, ?_⟩
  show (waitsWrite d → loop a true (some d) 0 = _) ∧ (nothingLeft d → ¬ waitsWrite d → loop a true (some d) 0 = _) ∧ (¬ nothingLeft d → ¬ waitsWrite d → loop a true (some d) 0 = _)
  rcases loop_cases a true (some d) 0 with ⟨h1, h2⟩ | ⟨h1, h3, h2⟩ | ⟨h1, h4, hn', h2⟩ | ⟨h1, h4, d', hd, ⟨hw, h2⟩ | ⟨hw, h3, h2⟩ | ⟨hw, h3, h2⟩⟩ <;> rw [h2]
  · omega
  · cases h3
  · cases hn'
  · cases hd; exact ⟨fun _ => rfl, fun _ h => absurd hw h, fun _ h => absurd hw h⟩
  · cases hd
    refine ⟨fun h => absurd h hw, fun hl _ => ?_, fun _ _ => rfl⟩
    rw [(nothing_or_cannot hw).1 hl] at h3; cases h3
  · cases hd
    refine ⟨fun h => absurd h hw, fun _ _ => rfl, fun hl _ => ?_⟩
    rw [(nothing_or_cannot hw).2 hl] at h3; cases h3

/-- It returns once. -/
theorem C37_once (a : Int) (d : Option Dev) (os os' : List WOp) (r : Res Int) (h : (write a d os).w = .done r) :
    (write a d (os ++ os')).w = .done r := done_stays a d os os' r h

/-- A device that confirms in portions `ks`, one per wait, with bytes left to write in between: one round of events.
Specification vocabulary, no counterpart in /repo. -/
def portion (left : Nat) (k : Int) : List WOp :=
  [.ev (.dev { toWrite := left }), .ev (.sig (.bytesWritten k) false), .ev .deliver]

/-- All the rounds. Specification vocabulary, no counterpart in /repo. -/
def portions : Nat → List Int → List WOp
  | _, [] => []
  | left, k :: ks => portion (left - k.toNat) k ++ portions (left - k.toNat) ks

theorem one_portion (a : Int) (left' : Nat) (c k : Int) (s : WState) (hw : s.wrapper = true) (left : Nat) (hl : left ≠ 0) (hs : s.w = .waiting c { toWrite := left } []) :
    (portion left' k).foldl (wstep a) s = { w := loop a true (some { toWrite := left' }) (c + k), wrapper := true } := by
  have hwt : waitsWrite { toWrite := left } := by simp [waitsWrite, hl]
  have hcall := waitForBytesWritten_wait _ hwt
  obtain ⟨w, wr⟩ := s
  dsimp only at hw hs
  subst hw hs
  simp only [portion, List.foldl_cons, List.foldl_nil]
  have e1 : wstep a { w := .waiting c { toWrite := left } [], wrapper := true } (.ev (.dev { toWrite := left' })) =
      { w := .waiting c { toWrite := left } [.dev { toWrite := left' }], wrapper := true } := by
    simp [wstep, hcall, Call.out, run, step, start]
  have e2 : wstep a { w := .waiting c { toWrite := left } [.dev { toWrite := left' }], wrapper := true } (.ev (.sig (.bytesWritten k) false)) =
      { w := .waiting c { toWrite := left } [.dev { toWrite := left' }, .sig (.bytesWritten k) false], wrapper := true } := by
    simp [wstep, hcall, Call.out, run, step, start, writeHelper, helper, baseConns, State.activate, onBytesWritten, State.ready]
  rw [e1, e2]
  have e3 : (waitForBytesWritten (some { toWrite := left })).out (-1) { toWrite := left } ([.dev { toWrite := left' }, .sig (.bytesWritten k) false] ++ [.deliver]) = some (.ok (some k)) ∧
      (waitForBytesWritten (some { toWrite := left })).dev (-1) { toWrite := left } ([.dev { toWrite := left' }, .sig (.bytesWritten k) false] ++ [.deliver]) = some { toWrite := left' } := by
    rw [hcall]
    constructor <;> rfl
  unfold wstep
  dsimp only
  rw [e3.1]
  dsimp only
  rw [e3.2]

/-- Portions: if the device confirms the accepted bytes in positive portions, one per wait, write() returns the accepted number. -/
theorem C37_portions (a : Nat) (ks : List Int) (hpos : ∀ k ∈ ks, 0 < k) (hsum : ks.sum = a) :
    (write a (some { toWrite := a }) (portions a ks)).w = .done (.ok a) := by
  have key : ∀ (ks : List Int) (c : Int) (left : Nat), (∀ k ∈ ks, 0 < k) → c + ks.sum = a → left = (ks.sum).toNat →
      ((portions left ks).foldl (wstep a) { w := loop a true (some { toWrite := left }) c, wrapper := true }).w = .done (.ok a) := by
    intro ks
    induction ks with
    | nil =>
      intro c left _ hs hl
      simp at hs
      simp [portions, loop, hs]
    | cons k ks ih =>
      intro c left hp hs hl
      have hk := hp k (by simp)
      have hnn : 0 ≤ ks.sum := by
        have : ∀ l : List Int, (∀ k ∈ l, 0 < k) → 0 ≤ l.sum := by
          intro l; induction l with
          | nil => simp
          | cons x l ih2 => intro h; have := h x (by simp); have := ih2 (fun k hk => h k (by simp [hk])); simp; omega
        exact this ks (fun k hk => hp k (by simp [hk]))
      rw [List.sum_cons] at hs hl
      have hl0 : left ≠ 0 := by omega
      have hca : c < a := by omega
      have hlp : loop a true (some { toWrite := left }) c = .waiting c { toWrite := left } [] := by
        have hwt : waitsWrite { toWrite := left } := by simp [waitsWrite, hl0]
        unfold loop; rw [if_pos hca, if_pos rfl, waitForBytesWritten_wait _ hwt]
      rw [hlp]
      show (((portion (left - k.toNat) k) ++ portions (left - k.toNat) ks).foldl (wstep a) _).w = _
      rw [List.foldl_append, one_portion a (left - k.toNat) c k _ rfl left hl0 rfl]
      apply ih (c + k) (left - k.toNat) (fun k hk => hp k (by simp [hk])) (by omega) (by omega)
  exact key ks 0 a hpos (by simpa using hsum) (by rw [hsum]; simp)

example : (write 5 (some { toWrite := 5 }) (portions 5 [2, 3])).w = .done (.ok 5) := C37_portions 5 [2, 3] (by simp) (by simp)

/-- The device closes: the wait reports 0, and, the device not being writable any more, write() returns what was confirmed. -/
theorem C37_close_ends (a : Int) (c : Int) (hc : c < a) (left : Nat) (hl : left ≠ 0) :
    ([WOp.ev (.sig .aboutToClose false), .ev (.dev { writable := false, readable := false }), .ev .deliver].foldl (wstep a) { w := .waiting c { toWrite := left } [] }).w = .done (.ok c) := by
  have hwt : waitsWrite { toWrite := left } := by simp [waitsWrite, hl]
  have hcall := waitForBytesWritten_wait _ hwt
  simp only [List.foldl_cons, List.foldl_nil]
  have e1 : wstep a { w := .waiting c { toWrite := left } [] } (.ev (.sig .aboutToClose false)) = { w := .waiting c { toWrite := left } [.sig .aboutToClose false] } := by
    simp [wstep, hcall, Call.out, run, step, start, writeHelper, helper, baseConns, State.activate, onBytesWritten, State.ready]
  have e2 : wstep a { w := .waiting c { toWrite := left } [.sig .aboutToClose false] } (.ev (.dev { writable := false, readable := false })) =
      { w := .waiting c { toWrite := left } [.sig .aboutToClose false, .dev { writable := false, readable := false }] } := by
    simp [wstep, hcall, Call.out, run, step, start, writeHelper, helper, baseConns, State.activate, onBytesWritten, State.ready]
  rw [e1, e2]
  have e3 : (waitForBytesWritten (some { toWrite := left })).out (-1) { toWrite := left } ([.sig .aboutToClose false, .dev { writable := false, readable := false }] ++ [.deliver]) = some (.ok (some 0)) ∧
      (waitForBytesWritten (some { toWrite := left })).dev (-1) { toWrite := left } ([.sig .aboutToClose false, .dev { writable := false, readable := false }] ++ [.deliver]) = some { writable := false, readable := false } := by
    rw [hcall]; constructor <;> rfl
  unfold wstep
  dsimp only
  rw [e3.1]
  dsimp only
  rw [e3.2]
  simp [loop, hc, waitForBytesWritten]

/-- Found: two bytesWritten emissions before the first is delivered: the second is lost, bytesToWrite() is 0 then, and the loop spins for ever
without returning to the event loop. -/
theorem C37_spins : ∃ os : List WOp, (write 5 (some { toWrite := 5 }) os).w = .spin :=
  ⟨[.ev (.sig (.bytesWritten 3) false), .ev (.sig (.bytesWritten 2) false), .ev (.dev { toWrite := 0 }), .ev .deliver], by decide⟩

/-- A spinning write never returns. -/
theorem C37_spin_forever (a : Int) (d : Option Dev) (os os' : List WOp) (h : (write a d os).w = .spin) : (write a d (os ++ os')).w = .spin := by
  induction os' using snocInd with
  | nil => simpa using h
  | snoc l o ih =>
    rw [← List.append_assoc, write_snoc]
    unfold wstep
    cases o with
    | drop => exact ih
    | ev op => rw [ih]; exact ih

/-- Found: bytes of earlier writes are counted: 3 bytes accepted, 10 reported, result 10. -/
theorem C37_overcounts : ∃ os : List WOp, (write 3 (some { toWrite := 10 }) os).w = .done (.ok 10) :=
  ⟨[.ev (.sig (.bytesWritten 10) false), .ev (.dev { toWrite := 0 }), .ev .deliver], by decide⟩

/-- Found: if the wrapper object is gone by the second round (the task was stored, the temporary `qCoro(device)` destroyed), it is used after its destruction. -/
theorem C37_wrapper_dangling : ∃ os : List WOp, (write 5 (some { toWrite := 5 }) os).w = .dangling :=
  ⟨[.drop, .ev (.dev { toWrite := 2 }), .ev (.sig (.bytesWritten 3) false), .ev .deliver], by decide⟩

/-- A device destroyed between two rounds is dereferenced. -/
theorem C37_destroyed_null_deref : ∃ os : List WOp, (write 5 (some { toWrite := 5 }) os).w = .done .nullDeref :=
  ⟨[.ev (.sig (.bytesWritten 3) false), .ev .gone, .ev .deliver], by decide⟩

end QCoro.Wait
