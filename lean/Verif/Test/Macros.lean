/-
The test macros of `qcoro/test/qcorotest.h` and the part of QtTest they call (`QTestResult::checkStatement`, `QTestResult::expectFail`,
`QTestResult::addSkip`, as in Qt's sources).  The `QCORO_TRY_…` macros are not modelled: they use `QCORO_TRY_LOOP_IMPL` (`:116`), which is
defined nowhere, so no program that uses them compiles.
-/
namespace QCoro.Test

/-- `QTest::TestFailMode`. Models Qt, not code of /repo; passed on by `QCORO_EXPECT_FAIL` (`qcoro/test/qcorotest.h:185-189`). -/
inductive Mode | abort | continue
deriving DecidableEq, Repr

/-- What QtTest reports: FAIL!, XPASS, XFAIL, SKIP, and the failure "Already expecting a fail". Models Qt, not code of /repo. -/
inductive Report | fail | xpass | xfail | skip | twice
deriving DecidableEq, Repr

/-- State of QtTest for the running test function. Models Qt, not code of /repo. -/
structure Qt where
  expect : Option Mode := none
  log : List Report := []
deriving DecidableEq, Repr

/-- `QTest::qVerify`, `qCompare`, `qTest`: report and tell whether to go on. Models Qt, not code of /repo. -/
def Qt.check (q : Qt) (ok : Bool) : Qt × Bool :=
  match q.expect, ok with
  | none, true => (q, true)
  | none, false => (⟨none, q.log ++ [.fail]⟩, false)
  | some m, true => (⟨none, q.log ++ [.xpass]⟩, m == .continue)
  | some m, false => (⟨none, q.log ++ [.xfail]⟩, m == .continue)

/-- `QTest::qFail`. Models Qt, not code of /repo. -/
def Qt.fail (q : Qt) : Qt := (q.check false).1

/-- `QTest::qSkip`. Models Qt, not code of /repo. -/
def Qt.skip (q : Qt) : Qt := ⟨none, q.log ++ [.skip]⟩

/-- `QTest::qExpectFail`; `applies`: the data index is that of the running data set. Models Qt, not code of /repo. -/
def Qt.expectFail (q : Qt) (m : Mode) (applies : Bool) : Qt × Bool :=
  if applies then
    match q.expect with
    | none => (⟨some m, q.log⟩, true)
    | some _ => (⟨none, q.log ++ [.twice]⟩, false)
  else (q, true)

/-- What evaluating the expression given to `QCORO_VERIFY_THROWS_EXCEPTION` raises: nothing, the expected exception (or one derived from
it), another `std::exception`, anything else (`qcoro/test/qcorotest.h:64-89`). -/
inductive Raise | nothing | expected | std | other
deriving DecidableEq, Repr

/-- A computation of the user's program: changes the user's state `σ` and gives a value, or throws (`none`). No counterpart in /repo. -/
abbrev Comp (σ α : Type) := σ → σ × Option α

/-- A statement of a test coroutine. -/
inductive Stmt (σ : Type)
  | act (f : Comp σ Unit)                            -- any other statement
  | verify (e : Comp σ Bool)                         -- QCORO_VERIFY (`:19-23`), QCORO_COMPARE (`:50-54`), QCORO_TEST (`:194-198`)
  | verify2 (e : Comp σ Bool) (d : Comp σ Unit)      -- QCORO_VERIFY2 (`:37-46`); d: the description
  | throws (e : σ → σ × Raise)                       -- QCORO_VERIFY_THROWS_EXCEPTION (`:64-89`), QCORO_VERIFY_EXCEPTION_THROWN (`:94-95`)
  | fail (d : Comp σ Unit)                           -- QCORO_FAIL (`:28-32`)
  | skip (d : Comp σ Unit)                           -- QCORO_SKIP (`:171-180`)
  | expectFail (d : Comp σ Unit) (m : Mode) (applies : Bool)  -- QCORO_EXPECT_FAIL (`:185-189`); d: the comment

/-- How the body was left: by `co_return`, or by an exception. No counterpart in /repo. -/
inductive Left | returned | threw
deriving DecidableEq, Repr

/-- The user's state, QtTest, and whether the body has been left. No counterpart in /repo. -/
structure State (σ : Type) where
  u : σ
  q : Qt := {}
  left : Option Left := none

variable {σ : Type}

/-- `if (!…) co_return;` (`qcoro/test/qcorotest.h:21-22`, `:40-44`, `:52-53`, `:187-188`, `:196-197`). -/
def State.unless (u : σ) (c : Qt × Bool) : State σ := ⟨u, c.1, if c.2 then none else some .returned⟩

/-- One statement (`qcoro/test/qcorotest.h:16-198`, lines at each case). -/
def step (s : State σ) (x : Stmt σ) : State σ :=
  match s.left with
  | some _ => s
  | none =>
    match x with
    | .act f =>
      match f s.u with
      | (u, some _) => ⟨u, s.q, none⟩
      | (u, none) => ⟨u, s.q, some .threw⟩
    | .verify e =>                        -- `:21`: if (!qVerify(statement)) co_return
      match e s.u with
      | (u, some ok) => .unless u (s.q.check ok)
      | (u, none) => ⟨u, s.q, some .threw⟩
    | .verify2 e d =>                     -- `:39-45`: statement, then description, in both branches
      match e s.u with
      | (u, some true) =>
        match d u with
        | (u', some _) => .unless u' (s.q.check true)
        | (u', none) => ⟨u', s.q, some .threw⟩
      | (u, some false) =>
        match d u with
        | (u', some _) => .unless u' (s.q.check false)
        | (u', none) => ⟨u', s.q, some .threw⟩
      | (u, none) => ⟨u, s.q, some .threw⟩
    | .throws e =>
      match e s.u with
      | (u, .nothing) => ⟨u, s.q.fail, some .returned⟩  -- `:68-71`
      | (u, .expected) => ⟨u, s.q, none⟩                -- `:72`
      | (u, .std) => ⟨u, s.q.fail, some .returned⟩      -- `:73-79`
      | (u, .other) => ⟨u, s.q.fail, some .returned⟩    -- `:80-85`
    | .fail d =>                          -- `:30-31`
      match d s.u with
      | (u, some _) => ⟨u, s.q.fail, some .returned⟩
      | (u, none) => ⟨u, s.q, some .threw⟩
    | .skip d =>                          -- `:173-174`
      match d s.u with
      | (u, some _) => ⟨u, s.q.skip, some .returned⟩
      | (u, none) => ⟨u, s.q, some .threw⟩
    | .expectFail d m a =>                -- `:187-188`
      match d s.u with
      | (u, some _) => .unless u (s.q.expectFail m a)
      | (u, none) => ⟨u, s.q, some .threw⟩

/-- A test coroutine. No counterpart in /repo. -/
def run (body : List (Stmt σ)) (s : State σ) : State σ := body.foldl step s

end QCoro.Test
