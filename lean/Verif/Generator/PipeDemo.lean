import Verif.Generator.PipeProps
/-! C81: a concrete pipeline of three generators that meets the hypotheses, run to its end with another generator used in between. -/
namespace QCoro.Gen.PipeDemo
open QCoro.AGen (Out Stage stream)

/-- `p n`: a source that works, then co_yields 10 and 20.  `m…`: a generator that loops over it, co_yields every value + 1 and at the end the sum
of the values.  `c…`: a generator that loops over that, co_yields every value twice and leaves at the first value over 25.  `x`: somebody else.
Example, no counterpart in /repo. -/
inductive S
  | p (n : Nat) | m0 | m1 | mf (t : Nat) | mm (t i : Nat) | ml (t i j : Nat) | mt (t i j : Nat) | mr (t i j : Nat) | mb (t i j : Nat) | me
  | c0 | c1 | cf | cm (i : Nat) | cl (i j : Nat) | ct (i j : Nat) | cr (i j : Nat) | cb (v i j : Nat) | cc (v i j : Nat) | x | stop
deriving DecidableEq

/-- Example, no counterpart in /repo. -/
def prog : Prog S Nat Nat where
  next
    | .p 0, _ => (.p 1, .api (.work 5))
    | .p 1, _ => (.p 2, .yield 10)
    | .p 2, _ => (.p 3, .yield 20)
    | .p _, _ => (.p 3, .ret)
    | .m0, _ => (.m1, .api (.create (.p 0)))
    | .m1, .obj o => (.mf 0, .api (.begin o))
    | .mf t, .iter i => (.mm t i, .api .endIt)
    | .mf _, .threw e => (.stop, .throw e)
    | .mm t i, .iter j => (.mt t i j, .api (.cmp i j))
    | .ml t i j, .iter _ => (.mt t i j, .api (.cmp i j))
    | .ml _ _ _, .threw e => (.stop, .throw e)
    | .mt t i j, .flag false => (.mr t i j, .api (.deref i))
    | .mt t _ _, .flag true => (.me, .yield t)
    | .mr t i j, .val v => (.mb (t + v) i j, .yield (v + 1))
    | .mb t i j, _ => (.ml t i j, .api (.inc i))
    | .c0, _ => (.c1, .api (.create .m0))
    | .c1, .obj o => (.cf, .api (.begin o))
    | .cf, .iter i => (.cm i, .api .endIt)
    | .cf, .threw e => (.stop, .throw e)
    | .cm i, .iter j => (.ct i j, .api (.cmp i j))
    | .cl i j, .iter _ => (.ct i j, .api (.cmp i j))
    | .cl _ _, .threw e => (.stop, .throw e)
    | .ct i j, .flag false => (.cr i j, .api (.deref i))
    | .cr i j, .val v => (.cb v i j, .yield v)
    | .cb v i j, _ => (.cc v i j, .yield v)
    | .cc v i j, _ => if v > 25 then (.stop, .ret) else (.cl i j, .api (.inc i))
    | .x, _ => (.stop, .yield 7)
    | _, _ => (.stop, .ret)

/-- What the loop of `m…` computes. Example, no counterpart in /repo. -/
def sums : Stage Nat Nat Nat where
  body t v := ([v + 1], .inl (t + v))
  fin t := ([t], none)
  fail _ e := ([], some e)

/-- What the loop of `c…` computes. Example, no counterpart in /repo. -/
def twice : Stage Unit Nat Nat where
  body _ v := ([v, v], if v > 25 then .inr none else .inl ())
  fin _ := ([], none)
  fail _ e := ([], some e)

/-- Example, no counterpart in /repo. -/
def sumsStage : IsStage prog sums where
  first := .mf
  made := .mm
  loop := .ml
  test := .mt
  read := .mr
  hEnd _ _ := rfl
  hCmp0 _ _ _ := rfl
  hCmp _ _ _ := rfl
  hRead _ _ _ := rfl
  hBody _ _ _ _ := .yield rfl (.next rfl)
  hFin _ _ _ := .yield rfl (.ret rfl)
  hFail0 _ _ := .throw rfl
  hFail _ _ _ _ := .throw rfl

/-- Example, no counterpart in /repo. -/
def twiceStage : IsStage prog twice where
  first _ := .cf
  made _ := .cm
  loop _ := .cl
  test _ := .ct
  read _ := .cr
  hEnd _ _ := rfl
  hCmp0 _ _ _ := rfl
  hCmp _ _ _ := rfl
  hRead _ _ _ := rfl
  hBody _ i j v := by
    refine .yield rfl (.yield rfl ?_)
    by_cases h : v > 25
    · have e : (twice.body () v).2 = .inr none := by simp [twice, h]
      rw [e]
      exact .ret (c' := .stop) (by simp [prog, h])
    · have e : (twice.body () v).2 = .inl () := by simp [twice, h]
      rw [e]
      exact .next (by simp [prog, h])
  hFin _ _ _ := .ret rfl
  hFail0 _ _ := .throw rfl
  hFail _ _ _ _ := .throw rfl

/-- The main program makes the last generator (0) and calls its begin(); up to where that one is about to call begin() of the middle one (1). -/
def pre0 : List (Op S Nat) := [.main (.create .c0), .main (.begin 0), .tick]
/-- … the middle one is about to call begin() of the source (2). -/
def pre1 : List (Op S Nat) := pre0 ++ [.tick, .tick]
/-- The first value arrives in the main program; it uses another generator (3, object 3); then it takes the rest. -/
def rest : List (Op S Nat) :=
  List.replicate 11 .tick ++ [.main (.create .x), .main (.begin 3), .tick, .main (.inc 4), .tick, .main (.inc 4)] ++ List.replicate 9 .tick ++
    [.main (.inc 4), .tick, .main (.inc 4)] ++ List.replicate 8 .tick ++ [.main (.inc 4), .tick, .main (.inc 4), .tick]
/-- Example, no counterpart in /repo. -/
def ops : List (Op S Nat) := pre1 ++ rest

set_option maxRecDepth 8000 in
theorem ub : (exec prog ops).ub = none := by decide

/-- Every advance of `g` in the list comes right after an action of `c`; `prev`: the event before the list. -/
def onlyBy (c g : Nat) : Option (Ev Nat Nat) → List (Ev Nat Nat) → Bool
  | _, [] => true
  | prev, e :: l => (match e with | .adv g' _ _ => g' != g || prev == some (.ran c) | _ => true) && onlyBy c g (some e) l

theorem onlyBy_sound (c g : Nat) (l : List (Ev Nat Nat)) : ∀ prev, onlyBy c g prev l = true → ∀ p call seen q, l = p ++ .adv g call seen :: q →
    (p.getLast?.or prev) = some (.ran c) := by
  induction l with
  | nil => intro prev _ p call seen q h; simp at h
  | cons e l ih =>
    intro prev h p call seen q he
    simp only [onlyBy, Bool.and_eq_true] at h
    cases p with
    | nil => simp at he; rw [he.1] at h; simpa using h.1
    | cons x p =>
      simp at he
      have := ih _ h.2 p call seen q he.2
      rw [List.getLast?_cons]
      cases hp : p.getLast? with
      | none => simp [hp] at this; rw [he.1] at this; simp [this]
      | some y => simp [hp] at this; simp [this]

theorem adv_of {c g : Nat} {l : List (Ev Nat Nat)} (h : onlyBy c g none l = true) : OnlyBy c g l := by
  intro p call seen q he
  simpa using onlyBy_sound c g l none h p call seen q he

def unpoked (g : Nat) (l : List (Ev Nat Nat)) : Bool := l.all (fun | .poked g' _ => g' != g | _ => true)
theorem poke_of {g : Nat} {l : List (Ev Nat Nat)} (h : unpoked g l = true) : Unwritten g l := by
  intro v hm
  have := List.all_eq_true.1 h _ hm
  simp at this

theorem log_split (a : List (Op S Nat)) (h : (exec prog ops).log.take (exec prog a).log.length = (exec prog a).log) :
    (exec prog ops).log = (exec prog a).log ++ (exec prog ops).log.drop (exec prog a).log.length := by
  have := List.take_append_drop (exec prog a).log.length (exec prog ops).log
  rw [h] at this
  exact this.symm

set_option maxRecDepth 8000 in
theorem src : Pipe prog ops 2 ([10, 20], none) :=
  .source 2 _ (.p 0) pre1 rest rfl (by decide) (by decide) (by decide) (.work rfl (.yield rfl (.yield rfl (.ret rfl)))) (poke_of (by decide))

set_option maxRecDepth 8000 in
/-- The generator in the middle: 11, 21 and the sum 30. -/
theorem mid : Pipe prog ops 1 ([11, 21, 30], none) :=
  .stage 1 2 2 _ sums sumsStage 0 .m1 (.begin 1) [(0, .begin 0)] pre1 rest.tail ((exec prog ops).log.drop (exec prog pre1).log.length) src rfl (by decide) (by decide) rfl
    (by decide) (by decide) (by decide) (log_split pre1 (by decide)) (adv_of (by decide)) (poke_of (by decide)) (poke_of (by decide))

set_option maxRecDepth 8000 in
/-- The last one: everything twice, up to 30. -/
theorem last : Pipe prog ops 0 ([11, 11, 21, 21, 30, 30], none) :=
  .stage 0 1 1 _ twice twiceStage () .c1 (.begin 0) [] pre0 ([.tick] ++ rest) ((exec prog ops).log.drop (exec prog pre0).log.length) mid rfl (by decide) (by decide) rfl
    (by decide) (by decide) (by decide) (log_split pre0 (by decide)) (adv_of (by decide)) (poke_of (by decide)) (poke_of (by decide))

-- so the pipeline theorem applies to every member; the last one does run to its end, the middle one is left parked at its last value
example : outs 0 (exec prog ops).log <+: stream ([11, 11, 21, 21, 30, 30], none) := (C81_pipeline prog ops ub 0 _ last).1
set_option maxRecDepth 8000 in
example : outs 0 (exec prog ops).log = [.val 11, .val 11, .val 21, .val 21, .val 30, .val 30, .stop none] ∧
    outs 1 (exec prog ops).log = [.val 11, .val 21, .val 30] ∧ outs 2 (exec prog ops).log = [.val 10, .val 20, .stop none] := by decide

end QCoro.Gen.PipeDemo
