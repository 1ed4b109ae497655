import Verif.Task.Model

/-! Core safety invariant of the Task machine: reference counts, stack discipline, awaiter lists. -/
namespace QCoro.Task
variable {σ V E : Type}

/-- Number of Task objects below `n` that hold coroutine `c`. -/
def holders (obj : Nat → Obj) : Nat → Nat → Nat
  | 0, _ => 0
  | n + 1, c => holders obj n c + (if (obj n).handle = some c then 1 else 0)

def hcount (x : Obj) (c : Nat) : Nat := if x.handle = some c then 1 else 0

theorem holders_congr {obj obj' : Nat → Obj} {n c : Nat}
    (h : ∀ o, o < n → (obj' o).handle = (obj o).handle) : holders obj' n c = holders obj n c := by
  induction n with
  | zero => rfl
  | succ n ih => simp only [holders]; rw [ih (fun o ho => h o (by omega)), h n (by omega)]

theorem holders_upd {obj : Nat → Obj} {n o c : Nat} {x : Obj} (h : o < n) :
    holders (fun i => if i = o then x else obj i) n c + hcount (obj o) c = holders obj n c + hcount x c := by
  induction n with
  | zero => omega
  | succ n ih =>
    simp only [holders]
    by_cases hn : n = o
    · subst hn
      have : holders (fun i => if i = n then x else obj i) n c = holders obj n c :=
        holders_congr (fun o ho => by rw [if_neg (by omega)])
      simp [this, hcount]; omega
    · have := ih (by omega); simp [hn]; omega

theorem holders_ge {obj : Nat → Obj} {n o c : Nat} {x : Obj} (h : n ≤ o) :
    holders (fun i => if i = o then x else obj i) n c = holders obj n c :=
  holders_congr (fun i hi => by rw [if_neg (by omega)])

theorem holders_pos {obj : Nat → Obj} {n o c : Nat} (ho : o < n) (h : (obj o).handle = some c) :
    0 < holders obj n c := by
  induction n with
  | zero => omega
  | succ n ih =>
    simp only [holders]
    by_cases hn : n = o
    · subst hn; simp [h]
    · have := ih (by omega); omega

def bodies (st : List Frame) : List Nat := st.filterMap (fun f => match f with | .body c => some c | _ => none)
def finals (st : List Frame) : List Nat := st.filterMap (fun f => match f with | .final c => some c | _ => none)

/-- Coroutines currently queued to be resumed by `d`'s completion. -/
def pend (x : Coro σ V E) : List Nat := if x.status = .done then x.fin else x.awaiters

/-- `debt = some c`: one reference to `c` has been given up but not yet counted down. -/
structure CoreD (s : State σ V E) (debt : Option Nat) : Prop where
  objB : ∀ o, s.no ≤ o → s.obj o = {}
  deadH : ∀ o, (s.obj o).alive = false → (s.obj o).handle = none
  hOk : ∀ o c, (s.obj o).handle = some c → c < s.nc ∧ (s.coro c).freed = false ∧ (s.coro c).kind = (s.obj o).kind
  corB : ∀ c, s.nc ≤ c → s.coro c = {}
  born : ∀ c, c < s.nc → (s.coro c).status ≠ .unborn
  rcOk : ∀ c, c < s.nc → (s.coro c).freed = false →
    (s.coro c).rc = holders s.obj s.no c + (s.coro c).selfRef.toNat + (if debt = some c then 1 else 0) ∧ 0 < (s.coro c).rc
  frS : ∀ c, (s.coro c).freed = true → (s.coro c).selfRef = false
  dOk : ∀ c, debt = some c → c < s.nc ∧ (s.coro c).freed = false
  bodyN : (bodies s.stack).Nodup
  bodyR : ∀ c, c ∈ bodies s.stack ↔ (s.coro c).status = .running
  finN : (finals s.stack).Nodup
  finR : ∀ c, c ∈ finals s.stack ↔ ((s.coro c).status = .done ∧ (s.coro c).selfRef = true)
  selfD : ∀ c, c < s.nc → (s.coro c).selfRef = false → (s.coro c).status = .done
  pendN : ∀ d, (pend (s.coro d)).Nodup
  pendR : ∀ d a, a ∈ pend (s.coro d) ↔ (s.coro a).status = .waitTask d
  finE : ∀ c, (s.coro c).selfRef = false → (s.coro c).fin = []
  resD : ∀ c, (s.coro c).result.isSome ↔ (s.coro c).status = .done
  initL : ∀ c, (s.coro c).status = .initial → (s.coro c).kind = .lazy
  codeS : ∀ c, c < s.nc → (s.coro c).code.isSome

abbrev Core (s : State σ V E) : Prop := CoreD s none

theorem core_init : Core (init : State σ V E) := by
  constructor <;> simp [init, holders, bodies, finals, pend]

/-- Two coroutine records agree in everything the core invariant looks at. -/
structure CEq (x y : Coro σ V E) : Prop where
  kind : x.kind = y.kind
  status : x.status = y.status
  result : x.result.isSome = y.result.isSome
  awaiters : x.awaiters = y.awaiters
  fin : x.fin = y.fin
  rc : x.rc = y.rc
  selfRef : x.selfRef = y.selfRef
  freed : x.freed = y.freed
  code : x.code.isSome = y.code.isSome

theorem CEq.refl (x : Coro σ V E) : CEq x x := ⟨rfl, rfl, rfl, rfl, rfl, rfl, rfl, rfl, rfl⟩

theorem CoreD.congr {s s' : State σ V E} {d : Option Nat} (h : CoreD s d)
    (ho : s'.obj = s.obj) (hno : s'.no = s.no) (hnc : s'.nc = s.nc)
    (hb : bodies s'.stack = bodies s.stack) (hf : finals s'.stack = finals s.stack)
    (hc : ∀ c, s.nc ≤ c → s'.coro c = {})
    (he : ∀ c, CEq (s'.coro c) (s.coro c)) : CoreD s' d := by
  have hp : ∀ c, pend (s'.coro c) = pend (s.coro c) := fun c => by
    simp [pend, (he c).status, (he c).fin, (he c).awaiters]
  constructor
  · rw [ho, hno]; exact h.objB
  · rw [ho]; exact h.deadH
  · intro o c; rw [ho, hnc, (he c).freed, (he c).kind]; exact h.hOk o c
  · rw [hnc]; exact hc
  · intro c; rw [hnc, (he c).status]; exact h.born c
  · intro c; rw [hnc, ho, hno, (he c).freed, (he c).rc, (he c).selfRef]; exact h.rcOk c
  · intro c; rw [(he c).freed, (he c).selfRef]; exact h.frS c
  · intro c; rw [hnc, (he c).freed]; exact h.dOk c
  · rw [hb]; exact h.bodyN
  · intro c; rw [hb, (he c).status]; exact h.bodyR c
  · rw [hf]; exact h.finN
  · intro c; rw [hf, (he c).status, (he c).selfRef]; exact h.finR c
  · intro c; rw [hnc, (he c).status, (he c).selfRef]; exact h.selfD c
  · intro c; rw [hp]; exact h.pendN c
  · intro c a; rw [hp, (he a).status]; exact h.pendR c a
  · intro c; rw [(he c).selfRef, (he c).fin]; exact h.finE c
  · intro c; rw [(he c).result, (he c).status]; exact h.resD c
  · intro c; rw [(he c).status, (he c).kind]; exact h.initL c
  · intro c; rw [hnc, (he c).code]; exact h.codeS c

@[simp, grind =] theorem bodies_cons_body (c : Nat) (st) : bodies (.body c :: st) = c :: bodies st := rfl
@[simp, grind =] theorem bodies_cons_final (c : Nat) (st) : bodies (.final c :: st) = bodies st := rfl
@[simp, grind =] theorem bodies_cons_drops (c) (st) : bodies (.drops c :: st) = bodies st := rfl
@[simp, grind =] theorem bodies_cons_assign (c d) (st) : bodies (.assign c d :: st) = bodies st := rfl
@[simp, grind =] theorem bodies_cons_waitA (c d) (st) : bodies (.waitA c d :: st) = bodies st := rfl
@[simp, grind =] theorem bodies_cons_waitB (c) (st) : bodies (.waitB c :: st) = bodies st := rfl
@[simp, grind =] theorem bodies_cons_loop (c) (st) : bodies (.loop c :: st) = bodies st := rfl
@[simp, grind =] theorem finals_cons_body (c : Nat) (st) : finals (.body c :: st) = finals st := rfl
@[simp, grind =] theorem finals_cons_final (c : Nat) (st) : finals (.final c :: st) = c :: finals st := rfl
@[simp, grind =] theorem finals_cons_drops (c) (st) : finals (.drops c :: st) = finals st := rfl
@[simp, grind =] theorem finals_cons_assign (c d) (st) : finals (.assign c d :: st) = finals st := rfl
@[simp, grind =] theorem finals_cons_waitA (c d) (st) : finals (.waitA c d :: st) = finals st := rfl
@[simp, grind =] theorem finals_cons_waitB (c) (st) : finals (.waitB c :: st) = finals st := rfl
@[simp, grind =] theorem finals_cons_loop (c) (st) : finals (.loop c :: st) = finals st := rfl

theorem CoreD.bodyLt {s : State σ V E} {d} (h : CoreD s d) {c : Nat} (hc : c ∈ bodies s.stack) : c < s.nc := by
  refine Nat.lt_of_not_le fun hn => ?_
  have := (h.bodyR c).1 hc
  rw [h.corB c hn] at this; simp at this

theorem CoreD.statusLt {s : State σ V E} {d} (h : CoreD s d) {c : Nat} (hc : (s.coro c).status ≠ .unborn) : c < s.nc := by
  exact Nat.lt_of_not_le fun hn => hc (by rw [h.corB c hn])

theorem CoreD.notFreed {s : State σ V E} {d} (h : CoreD s d) {c : Nat} (hlt : c < s.nc)
    (hc : (s.coro c).status ≠ .done) : (s.coro c).freed = false := by
  cases hf : (s.coro c).freed with
  | false => rfl
  | true => exact absurd (h.selfD c hlt (h.frS c hf)) hc

end QCoro.Task
