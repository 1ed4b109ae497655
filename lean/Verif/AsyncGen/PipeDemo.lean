import Verif.AsyncGen.Deadlock
/-!
C75: a concrete pipeline that meets the hypotheses, run to its end with another coroutine at work inside it.
-/
namespace QCoro.AGen.PipeDemo

/-- `p n`: a source that awaits something, then co_yields 10 and 20.  `m…`: a generator that loops over it, co_yields every value + 1 and at the
end the sum of the values.  `c…`: a plain coroutine that loops over that.  `x`: somebody else.
Example, no counterpart in /repo. -/
inductive S | p (n : Nat) | m0 | m1 | mh (t : Nat) | mt (t i : Nat) | mr (t i : Nat) | mb (t i : Nat) | mf | c0 | c1 | ch | ct (i : Nat) | cr (i : Nat) | cb (i : Nat) | x | stop
deriving DecidableEq

/-- Example, no counterpart in /repo. -/
def prog : Prog S Nat Nat where
  next
    | .p 0, _ => (.p 1, .awaitExt)
    | .p 1, _ => (.p 2, .yield 10)
    | .p 2, _ => (.p 3, .yield 20)
    | .p _, _ => (.p 3, .ret)
    | .m0, _ => (.m1, .create (.p 0))
    | .m1, .obj o => (.mh 0, .begin o)
    | .mh t, .iter i => (.mt t i, .isEnd i)
    | .mh _, .threw e => (.stop, .throw e)
    | .mt t i, .flag false => (.mr t i, .deref i)
    | .mt t _, .flag true => (.mf, .yield t)
    | .mr t i, .val v => (.mb (t + v) i, .yield (v + 1))
    | .mb t i, _ => (.mh t, .inc i)
    | .c0, _ => (.c1, .create .m0)
    | .c1, .obj o => (.ch, .begin o)
    | .ch, .iter i => (.ct i, .isEnd i)
    | .ch, .threw e => (.stop, .throw e)
    | .ct i, .flag false => (.cr i, .deref i)
    | .cr i, .val v => (.cb i, .work v)
    | .cb i, _ => (.ch, .inc i)
    | .x, _ => (.stop, .work 7)
    | _, _ => (.stop, .ret)

/-- What the loop of `m…` computes. Example, no counterpart in /repo. -/
def sums : Stage Nat Nat Nat where
  body t v := ([v + 1], .inl (t + v))
  fin t := ([t], none)
  fail _ e := ([], some e)

/-- What the loop of `c…` puts out: nothing. Example, no counterpart in /repo. -/
def sink : Stage Unit Nat Nat where
  body _ _ := ([], .inl ())
  fin _ := ([], none)
  fail _ e := ([], some e)

/-- Example, no counterpart in /repo. -/
def sumsStage : IsStage prog sums where
  head := .mh
  test := .mt
  read := .mr
  hTest _ _ := rfl
  hRead _ _ := rfl
  hBody _ _ _ := .yield rfl (.next rfl)
  hFin _ _ := .yield rfl (.ret rfl)
  hFail _ _ := .throw rfl

/-- Example, no counterpart in /repo. -/
def sinkStage : IsStage prog sink where
  head _ := .ch
  test _ := .ct
  read _ := .cr
  hTest _ _ := rfl
  hRead _ _ := rfl
  hBody _ _ _ := .work rfl (.next rfl)
  hFin _ _ := .ret rfl
  hFail _ _ := .throw rfl

/-- Up to where the consumer (coroutine 0) is about to call begin() of the stage (coroutine 1). -/
def pre0 : List (Op S) := [.spawn .c0, .tick]
/-- … the stage is about to call begin() of the source (coroutine 2). -/
def pre1 : List (Op S) := pre0 ++ [.tick, .tick]
/-- The source starts, awaits, another coroutine runs, the source continues, another one runs inside the stage; then all runs to the end. -/
def rest : List (Op S) := [.tick, .tick, .spawn .x, .tick, .tick, .ext 2, .tick, .tick, .spawn .x, .tick] ++ List.replicate 30 .tick
def ops : List (Op S) := pre1 ++ rest

set_option maxRecDepth 8000 in
theorem ub : (exec prog ops).ub = none := by decide

def advOnly (g c : Nat) (l : List (Ev Nat Nat)) : Bool := l.all (fun | .adv g' k _ => g' != g || k == c | _ => true)
def unpoked (g : Nat) (l : List (Ev Nat Nat)) : Bool := l.all (fun | .poked _ g' _ => g' != g | _ => true)

theorem adv_of {g c : Nat} {l : List (Ev Nat Nat)} (h : advOnly g c l = true) (k : Nat) (call : Call) (hm : Ev.adv g k call ∈ l) : k = c := by
  have := List.all_eq_true.1 h _ hm
  simpa using this
theorem poke_of {g : Nat} {l : List (Ev Nat Nat)} (h : unpoked g l = true) (i v : Nat) : Ev.poked i g v ∉ l := by
  intro hm
  have := List.all_eq_true.1 h _ hm
  simp at this

set_option maxRecDepth 8000 in
theorem src : Pipe prog ops 2 ([10, 20], none) :=
  .source 2 _ (.p 0) pre1 rest rfl (by decide) (by decide) (.await rfl (.yield rfl (.yield rfl (.ret rfl))))
    (poke_of (by decide))

theorem log_split (a : List (Op S)) (h : (exec prog ops).log.take (exec prog a).log.length = (exec prog a).log) :
    (exec prog ops).log = (exec prog a).log ++ (exec prog ops).log.drop (exec prog a).log.length := by
  have := List.take_append_drop (exec prog a).log.length (exec prog ops).log
  rw [h] at this
  exact this.symm

set_option maxRecDepth 8000 in
/-- The generator in the middle: 11, 21 and the sum 30. -/
theorem mid : Pipe prog ops 1 ([11, 21, 30], none) :=
  .stage 1 2 1 _ sums sumsStage 0 .m1 [] pre1 rest.tail ((exec prog ops).log.drop (exec prog pre1).log.length) src rfl (by decide) (by decide) rfl (by decide)
    (by decide) (by decide) (log_split pre1 (by decide)) (adv_of (by decide)) (poke_of (by decide)) (poke_of (by decide))

set_option maxRecDepth 8000 in
/-- The consumer: it puts out nothing, and returns. -/
theorem last : Pipe prog ops 0 ([], none) :=
  .stage 0 1 0 _ sink sinkStage () .c1 [] pre0 ([.tick] ++ rest) ((exec prog ops).log.drop (exec prog pre0).log.length) mid rfl (by decide) (by decide) rfl (by decide)
    (by decide) (by decide) (log_split pre0 (by decide)) (adv_of (by decide)) (poke_of (by decide)) (poke_of (by decide))

-- so the pipeline theorem applies to every member; and all of them do run to their ends
example : outs 1 (exec prog ops).log <+: stream ([11, 21, 30], none) := (C75_pipeline prog ops ub 1 _ mid).1
set_option maxRecDepth 8000 in
example : outs 1 (exec prog ops).log = [.val 11, .val 21, .val 30, .stop none] ∧ outs 0 (exec prog ops).log = [.stop none] ∧
    readsBy 0 1 (exec prog ops).log = [11, 21, 30] ∧ readsBy 1 2 (exec prog ops).log = [10, 20] := by decide

/-- While the source awaits something, both others are behind it. -/
def waiting : List (Op S) := pre1 ++ [.tick, .tick]
example : (exec prog waiting).ub = none ∧ (exec prog waiting).stack = [] ∧ (Spec.after (exec prog waiting).log).cw 0 = some 1 ∧
    (Spec.after (exec prog waiting).log).cw 1 = some 2 ∧ (Spec.after (exec prog waiting).log).susp 2 = true := by decide
example : Behind (Spec.after (exec prog waiting).log) 0 2 := .via (g := 1) (by decide) (.direct (by decide))

end QCoro.AGen.PipeDemo
