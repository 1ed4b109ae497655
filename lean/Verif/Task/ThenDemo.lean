import Verif.Task.ThenExact
import Verif.Task.ThenLazy

/-! Concrete runs that meet the hypotheses of C15–C18. -/
namespace QCoro.Task

/-- Task 0 waits for something external. -/
def thenPre : List (Op Nat Nat Nat) := [.main (.call .eager 0 0 [])] ++ go 3

/-- Ordinary callback 40, error callback 41. -/
def cfgPlain : ThenCfg Nat := ⟨40, none, some 41, none⟩
/-- Callback 20 is a coroutine (`co_return 7`). -/
def cfgCoro : ThenCfg Nat := ⟨20, some .eager, none, none⟩

def thenOp (cfg : ThenCfg Nat) : Op Nat Nat Nat := .main (.thenR 0 cfg)
def thenRun (cfg : ThenCfg Nat) (r : Res Nat Nat) : List (Op Nat Nat Nat) := thenPre ++ thenOp cfg :: (go 3 ++ [.main (.drop 0)] ++ [.fire 0 r] ++ go 20)

theorem thenRun_makes (cfg : ThenCfg Nat) :
    Makes demo (exec demo thenPre) (thenOp cfg) (exec demo thenPre).nc cfg.plain true (thenKind cfg ((exec demo thenPre).obj 0).kind) ((exec demo thenPre).obj 0).handle :=
  .thenR none 0 cfg ⟨by decide, .inl ⟨rfl, rfl, by decide⟩⟩

-- the continuation is coroutine 1, of a Task that holds coroutine 0
example : (exec demo thenPre).nc = 1 ∧ ((exec demo thenPre).obj 0).handle = some 0 ∧ ((exec demo thenPre).obj 0).kind = .eager ∧
    regs 0 (exec demo thenPre).log = [] ∧ gots 0 (exec demo thenPre).log = [] := by decide
-- C15: the task succeeds with 5; the callback is called with 5 and returns 1
example : (exec demo (thenRun cfgPlain (.val 5))).ub = none ∧ (exec demo (thenRun cfgPlain (.val 5))).stack = [] ∧
    .finished 0 (.val 5) ∈ (exec demo (thenRun cfgPlain (.val 5))).log ∧ cbs 1 (exec demo (thenRun cfgPlain (.val 5))).log = [5] ∧
    fins 1 (exec demo (thenRun cfgPlain (.val 5))).log = [.val 1] ∧ life 1 (exec demo (thenRun cfgPlain (.val 5))).log = .done := by decide
-- C15: coroutine callback; it is coroutine 2 and its result is the continuation's result
example : (exec demo (thenRun cfgCoro (.val 5))).ub = none ∧ (exec demo (thenRun cfgCoro (.val 5))).stack = [] ∧
    cbs 1 (exec demo (thenRun cfgCoro (.val 5))).log = [5] ∧ .cbTask 1 2 ∈ (exec demo (thenRun cfgCoro (.val 5))).log ∧
    fins 2 (exec demo (thenRun cfgCoro (.val 5))).log = [.val 7] ∧ fins 1 (exec demo (thenRun cfgCoro (.val 5))).log = [.val 7] := by decide
-- C16: exception 9 derives from std::exception, 200 does not
example : errs 1 (exec demo (thenRun cfgPlain (.exc 9))).log = [9] ∧ fins 1 (exec demo (thenRun cfgPlain (.exc 9))).log = [.val 0] ∧
    errs 1 (exec demo (thenRun cfgPlain (.exc 200))).log = [] ∧ fins 1 (exec demo (thenRun cfgPlain (.exc 200))).log = [.exc 200] ∧
    fins 1 (exec demo (thenRun cfgCoro (.exc 9))).log = [.exc 9] ∧ (exec demo (thenRun cfgCoro (.exc 9))).ub = none ∧
    (exec demo (thenRun cfgPlain (.exc 9))).ub = none := by decide
-- C17: object 2 is the continuation's Task; when it is dropped after completion both frames go
example : .destroyed 0 ∉ (exec demo (thenRun cfgPlain (.val 5))).log ∧ .destroyed 1 ∉ (exec demo (thenRun cfgPlain (.val 5))).log ∧
    .destroyed 0 ∈ (exec demo (thenRun cfgPlain (.val 5) ++ [.main (.drop 2)] ++ go 5)).log ∧
    .destroyed 1 ∈ (exec demo (thenRun cfgPlain (.val 5) ++ [.main (.drop 2)] ++ go 5)).log ∧
    (exec demo (thenRun cfgPlain (.val 5) ++ [.main (.drop 2)] ++ go 5)).stack = [] ∧
    (exec demo (thenRun cfgPlain (.val 5) ++ [.main (.drop 2)] ++ go 5)).ub = none := by decide

/-- `connect(task 0, context 3, 40)`, then perhaps the context object is destroyed, then the task completes. -/
def connRun (del : Bool) : List (Op Nat Nat Nat) :=
  thenPre ++ .main (.connect 0 3 40) :: (go 6 ++ (if del then [.main (.delCtx 3)] else []) ++ [.fire 0 (.val 5)] ++ go 20)

theorem connRun_makes : Makes demo (exec demo thenPre) (.main (.connect 0 3 40)) (exec demo thenPre).nc ⟨40, none, none, some 3⟩ false .eager ((exec demo thenPre).obj 0).handle :=
  .connect none 0 3 40 ⟨by decide, .inl ⟨rfl, rfl, by decide⟩⟩

-- C18
example : (exec demo (connRun false)).ub = none ∧ (exec demo (connRun false)).stack = [] ∧ cbs 1 (exec demo (connRun false)).log = [5] ∧
    (exec demo (connRun true)).ub = none ∧ (exec demo (connRun true)).stack = [] ∧ cbs 1 (exec demo (connRun true)).log = [] ∧
    .guardDead 1 ∈ (exec demo (connRun true)).log ∧ .finished 0 (.val 5) ∈ (exec demo (connRun true)).log := by decide

-- C08: then on a LazyTask (body 20) with an ordinary callback
def lazyPre : List (Op Nat Nat Nat) := [.main (.call .lazy 20 0 [])] ++ go 1
example : Performs demo (exec demo lazyPre) (.main (.thenR 0 cfgPlain)) none (.thenR 0 cfgPlain) ∧ (exec demo (lazyPre ++ [.main (.thenR 0 cfgPlain)])).ub = none ∧
    ((exec demo lazyPre).obj 0).kind = .lazy ∧ (exec demo (lazyPre ++ [.main (.thenR 0 cfgPlain)] ++ go 5)).log.contains (.started 1) = false :=
  ⟨⟨by decide, .inl ⟨rfl, rfl, by decide⟩⟩, by decide, by decide, by decide⟩
example : Performs demo (exec demo thenPre) (thenOp cfgPlain) none (.thenR 0 cfgPlain) ∧ ((exec demo thenPre).obj 0).kind = .eager ∧
    (exec demo (thenPre ++ [thenOp cfgPlain])).ub = none := ⟨⟨by decide, .inl ⟨rfl, rfl, by decide⟩⟩, by decide, by decide⟩

/-! ### C15: `then` on an lvalue LazyTask -/

/-- A LazyTask (body 20, `co_return 7`) in variable 0, and `then` on that variable: the continuation is LazyTask 1 in variable 1. -/
def lazyOp : Op Nat Nat Nat := .main (.thenL 0 cfgPlain)
/-- … which a coroutine (body 10 with argument 1) awaits. -/
def lazyRest : List (Op Nat Nat Nat) := go 1 ++ [.main (.call .eager 10 1 [])] ++ go 20

/-- The hypotheses of C15 are met by a lazy continuation of an lvalue. -/
theorem lazyRun_same : Makes demo (exec demo lazyPre) lazyOp 1 cfgPlain.plain false .lazy (some 0) ∧
    Same demo lazyPre lazyOp lazyRest 1 false .lazy (some 0) := by
  have hp : Performs demo (exec demo lazyPre) lazyOp none (.thenL 0 cfgPlain) := ⟨by decide, .inl ⟨rfl, rfl, by decide⟩⟩
  refine ⟨Makes.thenL none 0 cfgPlain hp, .inr (.inr ⟨none, 0, cfgPlain, hp, ?_⟩)⟩
  have key : ∀ n, n ≤ 22 → ((exec demo (lazyPre ++ lazyOp :: lazyRest.take n)).obj 0).handle = some 0 := by decide
  intro p q e _
  have hp : p = lazyRest.take p.length := by rw [e]; simp
  have hl : p.length ≤ 22 := by have := congrArg List.length e; simp [lazyRest, go] at this; omega
  rw [hp]; exact key _ hl
example : (exec demo (lazyPre ++ lazyOp :: lazyRest)).ub = none ∧ (exec demo (lazyPre ++ lazyOp :: lazyRest)).stack = [] ∧
    cbs 1 (exec demo (lazyPre ++ lazyOp :: lazyRest)).log = [7] ∧ life 1 (exec demo (lazyPre ++ lazyOp :: lazyRest)).log = .done := by decide

/-- Found: the lazy continuation of an lvalue refers to the variable: if the LazyTask is destroyed before the continuation is awaited,
a destroyed object is used … -/
theorem C15_lazy_lvalue_dangles :
    (exec demo (lazyPre ++ [lazyOp, .main (.drop 0)] ++ go 3)).ub = none ∧
    (exec demo (lazyPre ++ [lazyOp, .main (.drop 0)] ++ go 3 ++ [.main (.call .eager 10 1 [])] ++ go 14)).ub = some .badObj := by decide

/-- … and if it is replaced by another one (body 40, `co_return 1`), the callback gets the result of that one. -/
theorem C15_lazy_lvalue_replaced :
    let ops := lazyPre ++ [lazyOp] ++ go 1 ++ [.main (.call .lazy 40 0 []), .run, .main (.moveAssign 0 2)] ++ go 3 ++ [.main (.call .eager 10 1 [])] ++ go 16
    (exec demo ops).ub = none ∧ .thenMade 1 (some 0) (cfgPlain.plain.info false) ∈ (exec demo ops).log ∧ cbs 1 (exec demo ops).log = [1] ∧ fins 0 (exec demo ops).log = [] := by decide

-- C15: while a callback (or an error callback) runs, other code may run: it is called by the callback
example : let l := thenPre ++ thenOp cfgPlain :: (go 3 ++ [.fire 0 (.val 5)] ++ go 4)
    (exec demo l).stack.head? = some (.body 1) ∧ (exec demo (l ++ [.main (.note 77)])).log = (exec demo l).log ++ [.note none 77] := by decide
/-- `demo` with an error callback 60 that does something before it returns. -/
def demoErr : Prog Nat Nat Nat := { demo with next := fun s i => if s = 60 then (61, .note 3) else demoNext s i }
example : let l := thenPre ++ thenOp ⟨40, none, some 60, none⟩ :: (go 3 ++ [.fire 0 (.exc 9)] ++ go 4)
    (exec demoErr l).stack.head? = some (.body 1) ∧ (exec demoErr (l ++ [.main (.note 77)])).log = (exec demoErr l).log ++ [.note none 77] := by decide

end QCoro.Task
