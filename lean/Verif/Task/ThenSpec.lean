import Verif.Task.Trace

/-!
Specification of `then()` / `connect()`: which histories a continuation may have.  Everything here is about the
event trace and the user's callbacks; the machine is not mentioned.
-/
namespace QCoro.Task
variable {σ V E : Type}

/-- The events in the life of one library coroutine (a continuation made by `then`/`connect`, or the runner of a
`waitFor` call), named from its own point of view. -/
inductive HEv (V E : Type)
  | reg (d : Nat)                  -- suspends in co_await on d
  | got (d : Nat) (r : Res V E)    -- gets d's outcome r
  | hung                           -- awaits an empty Task
  | ext (r : Res V E)              -- an awaitable that is not a Task gave it r
  | cb (v : V) | err (e : E) | dead | cbTask (d : Nat)
  | fin (r : Res V E)              -- completes
deriving DecidableEq, Repr

/-- The event of `t`'s history an event of the trace stands for, if any. -/
def hev (t : Nat) : Ev V E → Option (HEv V E)
  | .awaitReg a d => if a = t then some (.reg d) else none
  | .gotReady a d r => if a = t then some (.got d r) else none
  | .gotWoken a d r => if a = t then some (.got d r) else none
  | .hung a => if a = t then some .hung else none
  | .extRes a r => if a = t then some (.ext r) else none
  | .cb a v => if a = t then some (.cb v) else none
  | .err a e => if a = t then some (.err e) else none
  | .guardDead a => if a = t then some .dead else none
  | .cbTask a d => if a = t then some (.cbTask d) else none
  | .finished a r => if a = t then some (.fin r) else none
  | _ => none

/-- The history of coroutine `t`. -/
def hist (t : Nat) (log : List (Ev V E)) : List (HEv V E) := log.filterMap (hev t)

/-- The values continuation `t`'s callback was called with, in order. -/
def cbs (t : Nat) (log : List (Ev V E)) : List V :=
  log.filterMap fun e => match e with | .cb a v => if a = t then some v else none | _ => none
/-- The exceptions continuation `t`'s error callback was called with, in order. -/
def errs (t : Nat) (log : List (Ev V E)) : List E :=
  log.filterMap fun e => match e with | .err a x => if a = t then some x else none | _ => none

/-- `co_await` on `d` delivered `r`, at once or after a suspension. -/
def Got (d : Nat) (r : Res V E) (p : List (HEv V E)) : Prop := p = [.got d r] ∨ p = [.reg d, .got d r]

/-- A function (callback) with start state `f`, called with `i0`, can be at point `x` having just been told `i`
by the operation it performed last. -/
inductive RunsTo (P : Prog σ V E) (f : σ) (i0 : Resp V E) : σ → Resp V E → Prop
  | start : RunsTo P f i0 f i0
  | step {x i} (j : Resp V E) (h : RunsTo P f i0 x i) : RunsTo P f i0 (P.next x i).1 j

/-- … and it can return (`val`) or throw (`exc`) this. -/
def EndsWith (P : Prog σ V E) (f : σ) (i0 : Resp V E) (r : Res V E) : Prop :=
  ∃ x i, RunsTo P f i0 x i ∧ ((∃ v, (P.next x i).2 = .ret v ∧ r = .val v) ∨ (∃ e, (P.next x i).2 = .throw e ∧ r = .exc e))

/-- Whatever it returns is dropped and replaced by a default value. -/
def discard (P : Prog σ V E) : Res V E → Res V E
  | .val _ => .val P.dflt
  | .exc e => .exc e

/-- Result of an ordinary callback called with `v`: what it returns or throws.  The lambda made by `connect` returns
nothing. -/
def CbResult (P : Prog σ V E) (cfg : ThenCfg σ) (v : V) (r : Res V E) : Prop :=
  ∃ r', EndsWith P cfg.cb (.start [] v) r' ∧ r = if cfg.guard.isSome then discard P r' else r'

/-- Result of handling exception `e` with error callback `f`: a default value, or what the error callback throws. -/
def ErrResult (P : Prog σ V E) (f : σ) (e : E) (r : Res V E) : Prop :=
  ∃ r', EndsWith P f (.res (.exc e)) r' ∧ r = discard P r'

/-- What a continuation may do once it has the outcome of its task. -/
inductive Tail (P : Prog σ V E) (cfg : ThenCfg σ) : Res V E → List (HEv V E) → Prop
  | none (r) : Tail P cfg r []
  /- the task succeeded: the callback is called with the value -/
  | cb (v) : Tail P cfg (.val v) [.cb v]
  /- ordinary callback: the continuation completes with its result -/
  | cbFin (v r) (hc : cfg.cbTask = none) (h : CbResult P cfg v r) : Tail P cfg (.val v) [.cb v, .fin r]
  /- the callback is a coroutine: it is created, awaited, and its outcome is the continuation's outcome -/
  | task (v d) (hc : cfg.cbTask.isSome) : Tail P cfg (.val v) [.cb v, .cbTask d]
  | taskReg (v d) (hc : cfg.cbTask.isSome) : Tail P cfg (.val v) [.cb v, .cbTask d, .reg d]
  | taskGot (v d r p) (hc : cfg.cbTask.isSome) (h : Got d r p) : Tail P cfg (.val v) ([.cb v, .cbTask d] ++ p)
  | taskFin (v d r p) (hc : cfg.cbTask.isSome) (h : Got d r p) : Tail P cfg (.val v) ([.cb v, .cbTask d] ++ p ++ [.fin r])
  /- connect, and the context object is gone: the callback is skipped -/
  | dead (v) (hg : cfg.guard.isSome) : Tail P cfg (.val v) [.dead]
  | deadFin (v) (hg : cfg.guard.isSome) : Tail P cfg (.val v) [.dead, .fin (.val P.dflt)]
  /- the task failed with a std::exception and there is an error callback: it is called with the exception -/
  | err (e f) (he : cfg.err = some f) (hs : P.isStd e = true) : Tail P cfg (.exc e) [.err e]
  | errFin (e f r) (he : cfg.err = some f) (hs : P.isStd e = true) (h : ErrResult P f e r) : Tail P cfg (.exc e) [.err e, .fin r]
  /- otherwise the exception goes through to the continuation -/
  | through (e) (h : cfg.err = none ∨ P.isStd e = false) : Tail P cfg (.exc e) [.fin (.exc e)]

/-- The histories of a continuation whose Task holds (`D`) a coroutine or nothing. -/
inductive Story (P : Prog σ V E) (cfg : ThenCfg σ) (D : Option Nat → Prop) : List (HEv V E) → Prop
  | idle : Story P cfg D []
  | hung (h : D none) : Story P cfg D [.hung]
  | waits (d) (h : D (some d)) : Story P cfg D [.reg d]
  | after (d r p tl) (h : D (some d)) (hp : Got d r p) (ht : Tail P cfg r tl) : Story P cfg D (p ++ tl)

end QCoro.Task
