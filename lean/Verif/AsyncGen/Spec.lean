import Verif.AsyncGen.Model
/-
Specification of asynchronous generators, independent of the model: an abstract machine over observable events.
-/
namespace QCoro.AGen
variable {V E : Type}

/-- Life of a coroutine as its users see it. -/
inductive Ph (V E : Type)
  | unborn
  | plain                    -- a plain (consumer) coroutine, not finished
  | plainOver
  | fresh                    -- generator created, producer not started
  | active (k : Nat)         -- consumer k is suspended in begin()/++, the producer is working on the next value
  | offered (v : V) (k : Nat) -- the producer has just co_yielded v
  | at (v : V)               -- suspended at co_yield, the current value is v
  | ended (k : Nat)          -- the producer has just returned
  | failed (e : E) (k : Nat) -- the producer has just thrown e
  | over                     -- completion was reported to the consumer
  | gone                     -- destroyed
deriving DecidableEq

/-- Abstract state: phase of every coroutine; `cw k = some g`: consumer `k` is suspended in begin()/++ of `g`;
`susp c`: suspended in another co_await; what every iterator refers to (`some none` is end()); what every
AsyncGenerator object owns; which generators lost their owner by move assignment. -/
structure Spec (V E : Type) where
  ph : Nat → Ph V E := fun _ => .unborn
  cw : Nat → Option Nat := fun _ => none
  susp : Nat → Bool := fun _ => false
  it : Nat → Option (Option Nat) := fun _ => none
  obj : Nat → Obj := fun _ => .none
  lost : Nat → Bool := fun _ => false

def Spec.next (S : Spec V E) : Ev V E → Spec V E
  | .spawned c => { S with ph := upd S.ph c .plain }
  | .created g o => { S with ph := upd S.ph g .fresh, obj := upd S.obj o (.live (some g)) }
  | .adv g k _ => { S with ph := upd S.ph g (.active k), cw := upd S.cw k (some g) }
  | .ran _ => S
  | .work _ _ => S
  | .suspended c => { S with susp := upd S.susp c true }
  | .resumed c => { S with susp := upd S.susp c false }
  | .yielded g v => { S with ph := match S.ph g with | .active k => upd S.ph g (.offered v k) | _ => S.ph }
  | .returned g => { S with ph := match S.ph g with | .active k => upd S.ph g (.ended k) | _ => S.ph }
  | .raised g e => { S with ph := match S.ph g with | .active k => upd S.ph g (.failed e k) | _ => S.ph }
  | .finished c _ => { S with ph := upd S.ph c .plainOver }
  | .got g k i =>
    { S with it := upd S.it i (some (some g)), cw := upd S.cw k none
             ph := match S.ph g with | .offered v _ => upd S.ph g (.at v) | _ => S.ph }
  | .gotEnd g k i => { S with ph := upd S.ph g .over, it := upd S.it i (some none), cw := upd S.cw k none }
  | .gotExc g k c _ =>
    { S with ph := upd S.ph g .over, cw := upd S.cw k none
             it := match c with | .inc i => upd S.it i (some none) | .begin => S.it }
  | .emptyBegin _ i => { S with it := upd S.it i (some none) }
  | .copied i j => { S with it := upd S.it j (S.it i) }
  | .tested _ _ => S
  | .read _ _ _ _ => S
  | .poked _ g v => { S with ph := upd S.ph g (.at v) }
  | .mkNull o => { S with obj := upd S.obj o (.live none) }
  | .moved o n => { S with obj := upd (upd S.obj n (S.obj o)) o (.live none) }
  | .assigned d c =>
    { S with obj := upd (upd S.obj d (S.obj c)) c (.live none),
             lost := match S.obj d with | .live (some g) => upd S.lost g true | _ => S.lost }
  | .swapped a b => { S with obj := upd (upd S.obj a (S.obj b)) b (S.obj a) }
  | .dropped o none => { S with obj := upd S.obj o .dead }
  | .dropped o (some g) => { S with obj := upd S.obj o .dead, ph := upd S.ph g .gone }

/-- A coroutine may execute: it is not suspended anywhere, and if it is a producer, some consumer is suspended in
begin()/++ waiting for it. -/
def Spec.runnable (S : Spec V E) (c : Nat) : Prop :=
  S.cw c = none ∧ S.susp c = false ∧ (S.ph c = .plain ∨ ∃ k, S.ph c = .active k ∧ S.cw k = some c)

/-- Which events may happen. -/
def Spec.ok (S : Spec V E) : Ev V E → Prop
  | .spawned c => S.ph c = .unborn
  | .created g o => S.ph g = .unborn ∧ S.obj o = .none
  | .adv g k c =>
    S.runnable k ∧ (S.ph g = .fresh ∨ ∃ v, S.ph g = .at v) ∧
    (match c with | .begin => ∃ o, S.obj o = .live (some g) | .inc i => S.it i = some (some g))
  | .ran c => S.runnable c
  | .work c _ => S.runnable c
  | .suspended c => S.runnable c
  | .resumed c => S.susp c = true ∧ S.cw c = none ∧ (S.ph c = .plain ∨ ∃ k, S.ph c = .active k)
  | .yielded g _ => S.runnable g ∧ ∃ k, S.ph g = .active k
  | .returned g => S.runnable g ∧ ∃ k, S.ph g = .active k
  | .raised g _ => S.runnable g ∧ ∃ k, S.ph g = .active k
  | .finished c _ => S.runnable c ∧ S.ph c = .plain
  | .got g k i => (∃ v, S.ph g = .offered v k) ∧ S.cw k = some g ∧ (S.it i = none ∨ S.it i = some (some g))
  | .gotEnd g k i => S.ph g = .ended k ∧ S.cw k = some g ∧ (S.it i = none ∨ S.it i = some (some g))
  | .gotExc g k c e => S.ph g = .failed e k ∧ S.cw k = some g ∧ ∀ i, c = .inc i → S.it i = some (some g)
  | .emptyBegin k i => S.runnable k ∧ S.it i = none
  | .copied i j => S.it i ≠ none ∧ S.it j = none
  | .tested i b => S.it i ≠ none ∧ (b = true ↔ S.it i = some none)
  | .read k g i v => S.runnable k ∧ S.it i = some (some g) ∧ S.ph g = .at v
  | .poked i g _ => S.it i = some (some g) ∧ ∃ w, S.ph g = .at w
  | .mkNull o => S.obj o = .none
  | .moved o n => (∃ h, S.obj o = .live h) ∧ S.obj n = .none
  | .assigned d c => (∃ h, S.obj d = .live h) ∧ (∃ h, S.obj c = .live h)
  | .swapped a b => (∃ h, S.obj a = .live h) ∧ (∃ h, S.obj b = .live h)
  | .dropped o none => S.obj o = .live none
  | .dropped o (some g) =>
    S.obj o = .live (some g) ∧ (S.ph g = .fresh ∨ (∃ v, S.ph g = .at v) ∨ S.ph g = .over ∨
      (∃ k, S.ph g = .active k) ∧ (S.susp g = true ∨ S.cw g ≠ none))

/-- Abstract state reached by a log. -/
def Spec.after (log : List (Ev V E)) : Spec V E := log.foldl Spec.next {}

theorem Spec.after_snoc (l : List (Ev V E)) (e : Ev V E) : Spec.after (l ++ [e]) = (Spec.after l).next e := by
  simp [Spec.after]

end QCoro.AGen
