import Verif.Task.Model

/-!
Specification vocabulary for the Task properties: functions of the event trace only, independent of the machine's
state.  `Chk ok log` says that every event of the trace is `ok` with respect to the events before it; `legal` is the
contract of `Task`/`LazyTask` in that form.
-/
namespace QCoro.Task
variable {σ V E : Type}

/-- Every event is acceptable given its past. -/
def Chk (ok : List (Ev V E) → Ev V E → Prop) (log : List (Ev V E)) : Prop :=
  ∀ pre e post, log = pre ++ e :: post → ok pre e

theorem Chk.nil {ok : List (Ev V E) → Ev V E → Prop} : Chk ok [] := by
  intro pre e post h; cases pre <;> simp at h

theorem Chk.snoc {ok : List (Ev V E) → Ev V E → Prop} {log e} (h : Chk ok log) (he : ok log e) : Chk ok (log ++ [e]) := by
  intro pre e' post h'
  rcases List.eq_nil_or_concat post with rfl | ⟨post', x, rfl⟩
  · obtain ⟨h1, h2⟩ := List.append_inj' h' rfl
    simp at h2; subst h1; subst h2; exact he
  · rw [List.concat_eq_append, ← List.cons_append, ← List.append_assoc] at h'
    obtain ⟨h1, h2⟩ := List.append_inj' h' rfl
    exact h pre e' post' h1

theorem Chk.mem {ok : List (Ev V E) → Ev V E → Prop} {log e} (h : Chk ok log) (he : e ∈ log) :
    ∃ pre post, log = pre ++ e :: post ∧ ok pre e := by
  obtain ⟨pre, post, rfl⟩ := List.append_of_mem he
  exact ⟨pre, post, rfl, h pre e post rfl⟩

/-! ### What the trace says about one coroutine -/

def lifeStep (c : Nat) (st : Status) : Ev V E → Status
  | .spawned x _ => if x = c then .initial else st
  | .started x => if x = c then .running else st
  | .awaitReg a d => if a = c then .waitTask d else st
  | .gotWoken a _ _ => if a = c then .running else st
  | .hung a => if a = c then .waitNull else st
  | .extSusp a => if a = c then .waitExt else st
  | .extRes a _ => if a = c then .running else st
  | .finished x _ => if x = c then .done else st
  | _ => st

/-- Life cycle of coroutine `c` as told by the trace: unborn, initial (created, not started), running, suspended in a
co_await on another task / on an empty task / on something external, done. -/
def life (c : Nat) (log : List (Ev V E)) : Status := log.foldl (lifeStep c) .unborn

/-- Who suspended in `co_await` on `d`, in order. -/
def regs (d : Nat) (log : List (Ev V E)) : List Nat :=
  log.filterMap fun e => match e with | .awaitReg a d' => if d' = d then some a else none | _ => none

/-- Who was resumed by the completion of `d`, in order. -/
def woken (d : Nat) (log : List (Ev V E)) : List Nat :=
  log.filterMap fun e => match e with | .gotWoken a d' _ => if d' = d then some a else none | _ => none

/-- With what `c` completed. -/
def fins (c : Nat) (log : List (Ev V E)) : List (Res V E) :=
  log.filterMap fun e => match e with | .finished x r => if x = c then some r else none | _ => none

/-- What co_awaits on `d` delivered, in order. -/
def gots (d : Nat) (log : List (Ev V E)) : List (Res V E) :=
  log.filterMap fun e => match e with
    | .gotReady _ d' r => if d' = d then some r else none
    | .gotWoken _ d' r => if d' = d then some r else none
    | _ => none

/-- What remains of an outcome after `n` awaiters took it: values are moved from, exceptions stay. -/
def readN (P : Prog σ V E) : Nat → Res V E → Res V E
  | 0, r => r
  | n + 1, r => afterRead P (readN P n r)

@[simp, grind =] theorem life_nil (c) : life c ([] : List (Ev V E)) = .unborn := rfl
@[simp, grind =] theorem regs_nil (c) : regs c ([] : List (Ev V E)) = [] := rfl
@[simp, grind =] theorem woken_nil (c) : woken c ([] : List (Ev V E)) = [] := rfl
@[simp, grind =] theorem fins_nil (c) : fins c ([] : List (Ev V E)) = [] := rfl
@[simp, grind =] theorem gots_nil (c) : gots c ([] : List (Ev V E)) = [] := rfl

@[simp] theorem life_snoc (c) (l : List (Ev V E)) (e) : life c (l ++ [e]) = lifeStep c (life c l) e := by
  simp [life]
@[simp] theorem regs_snoc (d) (l : List (Ev V E)) (e) : regs d (l ++ [e]) =
    regs d l ++ (match e with | .awaitReg a d' => if d' = d then [a] else [] | _ => []) := by
  simp only [regs, List.filterMap_append, List.filterMap_cons, List.filterMap_nil]
  congr 1
  cases e <;> simp
  split <;> simp_all
@[simp] theorem woken_snoc (d) (l : List (Ev V E)) (e) : woken d (l ++ [e]) =
    woken d l ++ (match e with | .gotWoken a d' _ => if d' = d then [a] else [] | _ => []) := by
  simp only [woken, List.filterMap_append, List.filterMap_cons, List.filterMap_nil]
  congr 1
  cases e <;> simp
  split <;> simp_all
@[simp] theorem fins_snoc (d) (l : List (Ev V E)) (e) : fins d (l ++ [e]) =
    fins d l ++ (match e with | .finished x r => if x = d then [r] else [] | _ => []) := by
  simp only [fins, List.filterMap_append, List.filterMap_cons, List.filterMap_nil]
  congr 1
  cases e <;> simp
  split <;> simp_all
@[simp] theorem gots_snoc (d) (l : List (Ev V E)) (e) : gots d (l ++ [e]) =
    gots d l ++ (match e with
      | .gotReady _ d' r => if d' = d then [r] else []
      | .gotWoken _ d' r => if d' = d then [r] else [] | _ => []) := by
  simp only [gots, List.filterMap_append, List.filterMap_cons, List.filterMap_nil]
  congr 1
  cases e <;> simp
  · split <;> simp_all
  · split <;> simp_all

/-- The contract of Task/LazyTask: when each event may happen. -/
def legal (P : Prog σ V E) (pre : List (Ev V E)) : Ev V E → Prop
  -- a coroutine is created once
  | .spawned c _ => life c pre = .unborn
  -- a Task body starts as part of the call; a LazyTask body starts as part of the first co_await; each only once
  | .started c => life c pre = .initial ∧
      ((∃ l, pre = l ++ [.spawned c .eager]) ∨ (∃ l a, pre = l ++ [.awaitReg a c] ∧ .spawned c .lazy ∈ pre))
  -- only a running coroutine awaits; it suspends only if the other one has not completed
  | .awaitReg a d => life a pre = .running ∧ life d pre ≠ .unborn ∧ life d pre ≠ .done ∧
      (.spawned d .lazy ∈ pre → life d pre = .initial)
  -- no suspension if it has completed; the result is what is left of the outcome
  | .gotReady a d r => life a pre = .running ∧ life d pre = .done ∧ .destroyed d ∉ pre ∧
      ∃ r0, fins d pre = [r0] ∧ r = readN P (gots d pre).length r0
  -- resumption: first come first served, only after completion, with what is left of the outcome
  | .gotWoken a d r => life a pre = .waitTask d ∧ life d pre = .done ∧ .destroyed d ∉ pre ∧
      (∃ rest, regs d pre = woken d pre ++ a :: rest) ∧ ∃ r0, fins d pre = [r0] ∧ r = readN P (gots d pre).length r0
  | .hung a => life a pre = .running
  | .extSusp a => life a pre = .running
  | .extRes a _ => life a pre = .waitExt
  | .finished c _ => life c pre = .running ∧ fins c pre = []
  -- a frame is destroyed once, after completion, when every awaiter has been resumed
  | .destroyed c => life c pre = .done ∧ .destroyed c ∉ pre ∧ regs c pre = woken c pre
  | .cb t _ => life t pre = .running
  | .err t _ => life t pre = .running
  | .cbTask t d => life t pre = .running ∧ life d pre = .unborn
  | .guardDead t => life t pre = .running
  | .ready _ h b => (h = none → b = true) ∧ ∀ c, h = some c → (b = true ↔ life c pre = .done)
  | .note (some a) _ => life a pre = .running
  | _ => True

end QCoro.Task
