import Verif.Generator.Model
/-
Specification of generators, independent of the model: an abstract machine over observable events.
Each generator goes through the phases of a lazy list being demanded element by element.
-/
namespace QCoro.Gen
variable {V E : Type}

/-- Life of one generator as its users see it. -/
inductive Ph (V E : Type)
  | unborn
  | fresh                 -- created, body not started
  | running               -- a begin()/++ is in progress
  | offered (v : V)       -- the body has just co_yielded v
  | at (v : V)            -- suspended at co_yield, the current value is v
  | ended                 -- the body has just returned
  | failed (e : E)        -- the body has just thrown e
  | over                  -- completion was reported to the consumer
  | gone                  -- destroyed
deriving DecidableEq

/-- Abstract state: phase of every generator, what every iterator refers to (`some none` is `end()`),
what every Generator object owns, and which generators lost their owner by move assignment. -/
structure Spec (V E : Type) where
  ph : Nat → Ph V E := fun _ => .unborn
  it : Nat → Option (Option Nat) := fun _ => none
  obj : Nat → Obj := fun _ => .none
  lost : Nat → Bool := fun _ => false

/-- Abstract state after an event (only meaningful for allowed events, see `Spec.ok`). -/
def Spec.next (S : Spec V E) : Ev V E → Spec V E
  | .created g o => { S with ph := upd S.ph g .fresh, obj := upd S.obj o (.live (some g)) }
  | .adv g _ _ => { S with ph := upd S.ph g .running }
  | .ran _ => S
  | .work _ _ => S
  | .yielded g v => { S with ph := upd S.ph g (.offered v) }
  | .returned g => { S with ph := upd S.ph g .ended }
  | .raised g e => { S with ph := upd S.ph g (.failed e) }
  | .got g i =>
    { S with it := upd S.it i (some (some g)), ph := match S.ph g with | .offered v => upd S.ph g (.at v) | _ => S.ph }
  | .gotEnd g i => { S with ph := upd S.ph g .over, it := upd S.it i (some none) }
  | .gotExc g c _ =>
    { S with ph := upd S.ph g .over, it := match c with | .inc i => upd S.it i (some none) | .begin _ => S.it }
  | .incEnd _ => S
  | .mkEnd i => { S with it := upd S.it i (some none) }
  | .copied i j => { S with it := upd S.it j (S.it i) }
  | .cmp _ _ _ => S
  | .read _ _ => S
  | .poked g v => { S with ph := upd S.ph g (.at v) }
  | .mkNull o => { S with obj := upd S.obj o (.live none) }
  | .moved o n => { S with obj := upd (upd S.obj n (S.obj o)) o (.live none) }
  | .assigned d c =>
    { S with obj := upd (upd S.obj d (S.obj c)) c (.live none),
             lost := match S.obj d with | .live (some g) => upd S.lost g true | _ => S.lost }
  | .dropped o none => { S with obj := upd S.obj o .dead }
  | .dropped o (some g) => { S with obj := upd S.obj o .dead, ph := upd S.ph g .gone }

/-- Which events may happen.
The rules for `adv … gotExc` say: nothing of the body runs before or between advances (`ran` needs `running`);
every advance resumes the body exactly once, where it stopped; the next thing its user sees is the very value
co_yielded (read through any iterator until the next advance), or the end exactly if the body returned, or the
exception exactly if it threw. -/
def Spec.ok (S : Spec V E) : Ev V E → Prop
  | .created g o => S.ph g = .unborn ∧ S.obj o = .none
  | .adv g c seen =>
    (match c with | .begin o => S.obj o = .live (some g) | .inc i => S.it i = some (some g)) ∧
    (match seen with | none => S.ph g = .fresh | some v => S.ph g = .at v)
  | .ran g => S.ph g = .running
  | .work who _ => ∀ g, who = some g → S.ph g = .running
  | .yielded g _ => S.ph g = .running
  | .returned g => S.ph g = .running
  | .raised g _ => S.ph g = .running
  | .got g i => (∃ v, S.ph g = .offered v) ∧ (S.it i = none ∨ S.it i = some (some g))
  | .gotEnd g i => S.ph g = .ended ∧ (S.it i = none ∨ S.it i = some (some g))
  | .gotExc g c e => S.ph g = .failed e ∧ ∀ i, c = .inc i → S.it i = some (some g)
  | .incEnd i => S.it i = some none
  | .mkEnd i => S.it i = none
  | .copied i j => S.it i ≠ none ∧ S.it j = none
  | .cmp i j b => S.it i ≠ none ∧ S.it j ≠ none ∧ (b = true ↔ S.it i = S.it j)
  | .read i v => ∃ g, S.it i = some (some g) ∧ S.ph g = .at v
  | .poked g _ => ∃ v, S.ph g = .at v
  | .mkNull o => S.obj o = .none
  | .moved o n => (∃ h, S.obj o = .live h) ∧ S.obj n = .none
  | .assigned d c => (∃ h, S.obj d = .live h) ∧ (∃ h, S.obj c = .live h)
  | .dropped o none => S.obj o = .live none
  | .dropped o (some g) => S.obj o = .live (some g) ∧ (S.ph g = .fresh ∨ (∃ v, S.ph g = .at v) ∨ S.ph g = .over)

/-- Abstract state reached by a log. -/
def Spec.after (log : List (Ev V E)) : Spec V E := log.foldl Spec.next {}

variable {σ : Type}

/-- `Emits P b r vs f`: run on its own, body `b` resumed with `r` co_yields exactly `vs` and then returns (`f = none`)
or throws `e` (`f = some e`). Specification of user code, no counterpart in /repo. -/
inductive Emits (P : Prog σ V E) : σ → Resp V E → List V → Option E → Prop
  | work {b r b' n vs f} : P.next b r = (b', .api (.work n)) → Emits P b' .unit vs f → Emits P b r vs f
  | yield {b r b' v vs f} : P.next b r = (b', .yield v) → Emits P b' (.resumed v) vs f → Emits P b r (v :: vs) f
  | ret {b r b'} : P.next b r = (b', .ret) → Emits P b r [] none
  | throw {b r b' e} : P.next b r = (b', .throw e) → Emits P b r [] (some e)

end QCoro.Gen
