import Verif.Task.Inv

/-! Ownership of Task objects the library itself holds (parameters of `thenImpl`, temporaries): each is destroyed
exactly once. -/
namespace QCoro.Task
variable {σ V E : Type}

def tokOf : Frame → List Nat
  | .drops os => os
  | .waitA _ t => [t]
  | _ => []

/-- Objects whose destruction is pending on the native stack. -/
def toks (st : List Frame) : List Nat := st.flatMap tokOf

@[simp, grind =] theorem toks_nil : toks [] = [] := rfl
@[simp, grind =] theorem toks_body (c st) : toks (.body c :: st) = toks st := rfl
@[simp, grind =] theorem toks_final (c st) : toks (.final c :: st) = toks st := rfl
@[simp, grind =] theorem toks_drops (c st) : toks (.drops c :: st) = c ++ toks st := rfl
@[simp, grind =] theorem toks_assign (c d st) : toks (.assign c d :: st) = toks st := rfl
@[simp, grind =] theorem toks_waitA (c d st) : toks (.waitA c d :: st) = d :: toks st := rfl
@[simp, grind =] theorem toks_waitB (c st) : toks (.waitB c :: st) = toks st := rfl
@[simp, grind =] theorem toks_loop (c st) : toks (.loop c :: st) = toks st := rfl

structure HInv (s : State σ V E) (ex : Option Nat) : Prop where
  tokB : ∀ o, o ∈ toks s.stack → o < s.no
  tok : ∀ o, o ∈ toks s.stack → (s.obj o).owner = .user ∨
    ((s.obj o).alive = true ∧ ((s.obj o).owner = .stk ∨ ∃ c, (s.obj o).owner = .param c ∧ (s.coro c).freed = true))
  tokN : ∀ o, (s.obj o).owner ≠ .user → (toks s.stack).count o ≤ 1
  ownB : ∀ c o, o ∈ (s.coro c).owned → o < s.no
  own : ∀ c o, (s.coro c).freed = false → o ∈ (s.coro c).owned → (s.obj o).owner = .user ∨
    ((s.obj o).owner = .param c ∧ (s.obj o).alive = true)
  ownN : ∀ c o, (s.obj o).owner ≠ .user → (s.coro c).owned.count o ≤ 1
  tmp : ∀ c o cfg t, (s.coro c).code = some (.thenC o cfg (.cbAwait t)) →
    t < s.no ∧ (s.obj t).owner = .tmp c ∧ (s.obj t).alive = true
  called : ∀ c, ex ≠ some c → ∀ o cfg t, (s.coro c).code = some (.thenC o cfg .cbCalled) → (s.coro c).inp = .obj t →
    t < s.no ∧ (s.obj t).owner = .tmp c ∧ (s.obj t).alive = true
  codB : ∀ c, s.nc ≤ c → s.coro c = {}

theorem hinv_init : HInv (init : State σ V E) none := by constructor <;> simp [init]

theorem HInv.same {s s' : State σ V E} {ex} (h : HInv s ex) (h1 : s'.stack = s.stack) (h2 : s'.no = s.no)
    (h3 : s'.obj = s.obj) (h4 : s'.coro = s.coro) (h5 : s'.nc = s.nc) : HInv s' ex := by
  obtain ⟨a1,a2,a3,a4,a5,a6,a7,a8,a9⟩ := h
  constructor <;> simp only [h1, h2, h3, h4, h5] <;> assumption

/-- Stack with the same pending destructions. -/
theorem HInv.stk {s s' : State σ V E} {ex} (h : HInv s ex) (h1 : toks s'.stack = toks s.stack) (h2 : s'.no = s.no)
    (h3 : s'.obj = s.obj) (h4 : s'.coro = s.coro) (h5 : s'.nc = s.nc) : HInv s' ex := by
  obtain ⟨a1,a2,a3,a4,a5,a6,a7,a8,a9⟩ := h
  constructor <;> simp only [h1, h2, h3, h4, h5] <;> assumption

/-- Same object ownership, fewer restrictions. -/
structure HEq' (x y : Coro σ V E) : Prop where
  owned : x.owned = y.owned
  freed : x.freed = y.freed
  code : x.code = y.code
  inp : x.inp = y.inp ∨ (∀ t, x.inp ≠ .obj t) ∨ ∀ o cfg, y.code ≠ some (.thenC o cfg .cbCalled)

theorem HInv.coros {s s' : State σ V E} {ex} (h : HInv s ex) (h1 : toks s'.stack = toks s.stack) (h2 : s'.no = s.no)
    (h3 : s'.obj = s.obj) (h4 : ∀ c, HEq' (s'.coro c) (s.coro c)) (h5 : s'.nc = s.nc)
    (h6 : ∀ c, s.nc ≤ c → s'.coro c = {}) : HInv s' ex := by
  obtain ⟨a1,a2,a3,a4,a5,a6,a7,a8,a9⟩ := h
  constructor
  · rw [h1, h2]; exact a1
  · rw [h1, h3]; intro o ho
    rcases a2 o ho with h | ⟨h, h' | ⟨c, h', h''⟩⟩
    · exact Or.inl h
    · exact Or.inr ⟨h, Or.inl h'⟩
    · exact Or.inr ⟨h, Or.inr ⟨c, h', by rw [(h4 c).freed]; exact h''⟩⟩
  · rw [h1, h3]; exact a3
  · intro c; rw [h2, (h4 c).owned]; exact a4 c
  · intro c; rw [h3, (h4 c).owned, (h4 c).freed]; exact a5 c
  · intro c; rw [h3, (h4 c).owned]; exact a6 c
  · intro c; rw [h2, h3, (h4 c).code]; exact a7 c
  · intro c hc; rw [h2, h3, (h4 c).code]
    intro o cfg t hcode hinp
    rcases (h4 c).inp with hi | hi | hi
    · rw [hi] at hinp; exact a8 c hc o cfg t hcode hinp
    · exact absurd hinp (hi t)
    · exact absurd hcode (hi o cfg)
  · rw [h5]; exact h6

theorem HInv.reply {s : State σ V E} {ex who} (h : HInv s ex) (hlt : ∀ c, who = some c → c < s.nc)
    (hn : ∀ c, who = some c → ∀ o cfg, (s.coro c).code ≠ some (.thenC o cfg .cbCalled)) (i) : HInv (s.reply who i) ex := by
  cases who with
  | none => exact h
  | some c =>
    have := hlt c rfl
    refine h.coros rfl rfl rfl ?_ rfl ?_
    · intro i'
      simp only [State.reply, State.setCoro]
      split
      · rename_i hi; subst hi; exact ⟨rfl, rfl, rfl, Or.inr (Or.inr (hn _ rfl))⟩
      · exact ⟨rfl, rfl, rfl, Or.inl rfl⟩
    · intro i' hi
      simp only [State.reply, State.setCoro]
      rw [if_neg (by omega)]; exact h.codB i' hi

/-- Object updates user code can cause: only user-visible objects die, nothing changes owner. -/
theorem HInv.objs {s s' : State σ V E} {ex} (h : HInv s ex) (h1 : toks s'.stack = toks s.stack) (h2 : s'.no = s.no)
    (h4 : s'.coro = s.coro) (h5 : s'.nc = s.nc)
    (ho : ∀ o, (s'.obj o).owner = (s.obj o).owner)
    (hl : ∀ o, (s'.obj o).owner ≠ .user → (s.obj o).alive = true → (s'.obj o).alive = true ∨
      (o ∉ toks s.stack ∧ (∀ c, (s.obj o).owner = .param c → (s.coro c).freed = true) ∧
       (∀ c, (s.obj o).owner = .tmp c → (∀ x cfg t, (s.coro c).code ≠ some (.thenC x cfg (.cbAwait t))) ∧
          ∀ x cfg, (s.coro c).code ≠ some (.thenC x cfg .cbCalled)))) : HInv s' ex := by
  obtain ⟨a1,a2,a3,a4,a5,a6,a7,a8,a9⟩ := h
  constructor <;> simp only [h1, h2, h4, h5] <;> grind

theorem HInv.deref {s : State σ V E} {ex c} (h : HInv s ex) (hlt : c < s.nc) : HInv (deref s c) ex := by
  unfold Task.deref
  split
  · exact h.same rfl rfl rfl rfl rfl
  split
  · exact h.same rfl rfl rfl rfl rfl
  · split
    · exact h.same rfl rfl rfl rfl rfl
    · obtain ⟨a1,a2,a3,a4,a5,a6,a7,a8,a9⟩ := h
      have hf : (s.coro c).freed = false := by simp_all
      constructor <;> simp only [State.push, State.emit, State.setCoro, toks_drops]
      case tokB => grind
      case tok => grind
      case tokN =>
        intro o ho
        rw [List.count_append, List.count_reverse]
        by_cases hm : o ∈ (s.coro c).owned
        · have hp := a5 c o hf hm
          have : o ∉ toks s.stack := by
            intro hm'
            have := a2 o hm'
            grind
          have h0 := List.count_eq_zero.2 this
          have := a6 c o ho
          omega
        · have h0 := List.count_eq_zero.2 hm
          have := a3 o ho
          omega
      all_goals grind
  · refine h.coros rfl rfl rfl ?_ rfl ?_
    · intro i
      simp only [State.setCoro]
      split
      · rename_i hi; subst hi; exact ⟨rfl, rfl, rfl, Or.inl rfl⟩
      · exact ⟨rfl, rfl, rfl, Or.inl rfl⟩
    · intro i hi
      simp only [State.setCoro]
      rw [if_neg (by omega)]; exact h.codB i hi

/-- An object that nobody but its user-level owner (if any) is responsible for. -/
def Loose (s : State σ V E) (o : Nat) : Prop :=
  (s.obj o).owner = .user ∨ (o ∉ toks s.stack ∧ (∀ c, (s.obj o).owner = .param c → (s.coro c).freed = true) ∧
       (∀ c, (s.obj o).owner = .tmp c → (∀ x cfg t, (s.coro c).code ≠ some (.thenC x cfg (.cbAwait t))) ∧
          ∀ x cfg, (s.coro c).code ≠ some (.thenC x cfg .cbCalled)))

theorem HInv.dropObj {s : State σ V E} {ex o} (h : HInv s ex) (hb : ∀ c, (s.obj o).handle = some c → c < s.nc)
    (ho : Loose s o) : HInv (dropObj s o) ex := by
  unfold Task.dropObj
  unfold Loose at ho
  split
  · refine h.objs rfl rfl rfl rfl ?_ ?_ <;> simp only [State.setObj] <;> grind
  · rename_i c hc
    refine HInv.deref ?_ (hb c hc)
    refine h.objs rfl rfl rfl rfl ?_ ?_ <;> simp only [State.setObj] <;> grind

theorem HInv.moveObj {s : State σ V E} {ex src own} (h : HInv s ex) (hs : src < s.no) : HInv (moveObj s src own) ex := by
  have hz : ∀ o, s.no ≤ o → (toks s.stack).count o = 0 := fun o ho =>
    List.count_eq_zero.2 (fun hm => by have := h.tokB o hm; omega)
  have hz' : ∀ c o, s.no ≤ o → (s.coro c).owned.count o = 0 := fun c o ho =>
    List.count_eq_zero.2 (fun hm => by have := h.ownB c o hm; omega)
  obtain ⟨a1,a2,a3,a4,a5,a6,a7,a8,a9⟩ := h
  unfold Task.moveObj
  constructor <;> simp only [State.setObj]
  case tokB => grind
  case tok => grind
  case tokN => grind
  case ownB => grind
  case own => grind
  case ownN => grind
  all_goals grind

theorem HInv.mkNull {s : State σ V E} {ex k} (h : HInv s ex) :
    HInv ({ s.setObj s.no { alive := true, kind := k } with no := s.no + 1 }) ex := by
  obtain ⟨a1,a2,a3,a4,a5,a6,a7,a8,a9⟩ := h
  constructor <;> simp only [State.setObj] <;> grind

theorem HInv.spawn {P : Prog σ V E} {s : State σ V E} {ex k code ps v own} (h : HInv s ex)
    (hps : ∀ o, o ∈ ps → o < s.no)
    (hpo : ∀ o, o ∈ ps → (s.obj o).owner = .user ∨ ((s.obj o).owner = .param s.nc ∧ (s.obj o).alive = true))
    (hpn : ∀ o, (s.obj o).owner ≠ .user → ps.count o ≤ 1)
    (hc1 : ∀ o cfg t, code ≠ .thenC o cfg (.cbAwait t)) (hc2 : ∀ o cfg, code ≠ .thenC o cfg .cbCalled) :
    HInv (spawn P s k code ps v own) ex := by
  have hz : ∀ o, s.no ≤ o → (toks s.stack).count o = 0 := fun o ho =>
    List.count_eq_zero.2 (fun hm => by have := h.tokB o hm; omega)
  have hz' : ∀ c o, s.no ≤ o → (s.coro c).owned.count o = 0 := fun c o ho =>
    List.count_eq_zero.2 (fun hm => by have := h.ownB c o hm; omega)
  have hz'' : ∀ o, s.no ≤ o → ps.count o = 0 := fun o ho =>
    List.count_eq_zero.2 (fun hm => by have := hps o hm; omega)
  obtain ⟨a1,a2,a3,a4,a5,a6,a7,a8,a9⟩ := h
  unfold Task.spawn
  cases k <;> constructor <;> simp only [State.setObj, State.push, State.emit, State.setCoro, toks_body]
  case eager.tok => grind
  case lazy.tok => grind
  all_goals grind

theorem HInv.spawnTok {P : Prog σ V E} {s : State σ V E} {ex k code v f} (h : HInv s ex) (hf : tokOf f = [s.no])
    (hc1 : ∀ o cfg t, code ≠ .thenC o cfg (.cbAwait t)) (hc2 : ∀ o cfg, code ≠ .thenC o cfg .cbCalled) :
    HInv (Task.spawn P (s.push f) k code [] v .stk) ex := by
  have hz : ∀ o, s.no ≤ o → (toks s.stack).count o = 0 := fun o ho =>
    List.count_eq_zero.2 (fun hm => by have := h.tokB o hm; omega)
  have hz' : ∀ c o, s.no ≤ o → (s.coro c).owned.count o = 0 := fun c o ho =>
    List.count_eq_zero.2 (fun hm => by have := h.ownB c o hm; omega)
  have ht : toks (f :: s.stack) = s.no :: toks s.stack := by simp [toks, hf]
  obtain ⟨a1,a2,a3,a4,a5,a6,a7,a8,a9⟩ := h
  unfold Task.spawn
  cases k <;> constructor <;> simp only [State.setObj, State.push, State.emit, State.setCoro, toks_body, ht]
  case eager.tok => grind
  case lazy.tok => grind
  all_goals grind

theorem HInv.unex {s : State σ V E} {ex} (h : HInv s ex)
    (hc : ∀ c, ex = some c → ∀ o cfg t, (s.coro c).code = some (.thenC o cfg .cbCalled) → (s.coro c).inp = .obj t →
      t < s.no ∧ (s.obj t).owner = .tmp c ∧ (s.obj t).alive = true) : HInv s none := by
  obtain ⟨a1,a2,a3,a4,a5,a6,a7,a8,a9⟩ := h
  refine ⟨a1,a2,a3,a4,a5,a6,a7,?_,a9⟩
  intro c _
  by_cases hx : ex = some c
  · exact hc c hx
  · exact a8 c hx

theorem HInv.exAny {s : State σ V E} (h : HInv s none) (ex) : HInv s ex := by
  obtain ⟨a1,a2,a3,a4,a5,a6,a7,a8,a9⟩ := h
  exact ⟨a1,a2,a3,a4,a5,a6,a7,fun c _ => a8 c (by simp),a9⟩

theorem moveArgs_H (as : List Nat) : ∀ {s : State σ V E} {ex}, HInv s ex → (∀ o, (s.obj o).alive = true → o < s.no) →
    (moveArgs s as).1.ub = none →
    HInv (moveArgs s as).1 ex ∧ (∀ o, o ∈ (moveArgs s as).2 → o < (moveArgs s as).1.no ∧
      ((moveArgs s as).1.obj o).owner = .user) := by
  induction as with
  | nil => intro s ex h _ _; exact ⟨h, by simp [moveArgs]⟩
  | cons a as ih =>
    intro s ex h hb hu
    simp only [moveArgs] at hu ⊢
    split
    · rename_i hx
      rw [if_pos hx] at hu
      have ha := hb a (usable_alive hx)
      have h1 : HInv (Task.moveObj s a .user) ex := h.moveObj ha
      have hb' : ∀ o, ((Task.moveObj s a .user).obj o).alive = true → o < (Task.moveObj s a .user).no := by
        intro o
        have := hb o
        simp only [Task.moveObj, State.setObj]
        split
        · intro _; omega
        · split
          · intro _; omega
          · intro hh; have := this hh; omega
      obtain ⟨g1, g2⟩ := ih h1 hb' hu
      refine ⟨g1, ?_⟩
      intro o ho
      simp at ho
      rcases ho with rfl | ho
      · have he := eff_moveArgs as (Task.moveObj s a .user)
        have hlt : s.no < (Task.moveObj s a .user).no := by simp [Task.moveObj]
        refine ⟨Nat.lt_of_lt_of_le hlt he.no, ?_⟩
        rw [he.owner s.no hlt]
        simp [Task.moveObj, State.setObj]
      · exact g2 o ho
    · rename_i hx; rw [if_neg hx] at hu; simp [State.fail] at hu

theorem CoreD.aliveLt {s : State σ V E} {d} (h : CoreD s d) {o} (ha : (s.obj o).alive = true) : o < s.no :=
  Nat.lt_of_not_le fun hn => by rw [h.objB o hn] at ha; simp at ha

theorem usable_user {s : State σ V E} {o} (h : s.usable false o = true) : (s.obj o).owner = .user := by
  simp [State.usable] at h; exact h.2

theorem awaitObj_H {P : Prog σ V E} {s : State σ V E} {a o priv ex} (h : HInv s ex) (hc : Core s) (ha : Actor s (some a))
    (hn : ∀ x cfg, (s.coro a).code ≠ some (.thenC x cfg .cbCalled)) : HInv (awaitObj P s a o priv) ex := by
  have hlt := ha.lt hc a rfl
  obtain ⟨st, hst⟩ := ha
  unfold awaitObj
  split
  · split
    · split
      · refine h.coros (by simp [State.pop, State.emit, State.setCoro, hst]) rfl rfl ?_ rfl ?_
        · intro i; simp only [State.pop, State.emit, State.setCoro]; split
          · rename_i hi; subst hi; exact ⟨rfl, rfl, rfl, Or.inl rfl⟩
          · exact ⟨rfl, rfl, rfl, Or.inl rfl⟩
        · intro i hi; simp only [State.pop, State.emit, State.setCoro]
          rw [if_neg (by omega)]; exact h.codB i hi
      · exact h.same rfl rfl rfl rfl rfl
    · rename_i d hd
      have hdl := (hc.hOk o d hd).1
      split
      · exact h.same rfl rfl rfl rfl rfl
      split
      · split
        · exact h.same rfl rfl rfl rfl rfl
        · refine h.coros (by simp [State.emit, State.setCoro]) rfl rfl ?_ rfl ?_
          · intro i; simp only [State.reply, State.emit, State.setCoro]
            constructor <;> grind
          · intro i hi; simp only [State.reply, State.emit, State.setCoro]
            rw [if_neg (by omega), if_neg (by omega)]; exact h.codB i hi
      · split
        · refine h.coros (by simp [State.emit, State.pop, State.setCoro, hst]) rfl rfl ?_ rfl ?_
          · intro i; simp only [State.emit, State.pop, State.setCoro]
            constructor <;> grind
          · intro i hi; simp only [State.emit, State.pop, State.setCoro]
            rw [if_neg (by omega), if_neg (by omega)]; exact h.codB i hi
        · split
          · refine h.coros (by simp [State.emit, State.pop, State.push, State.setCoro, hst]) rfl rfl ?_ rfl ?_
            · intro i; simp only [State.emit, State.pop, State.push, State.setCoro]
              constructor <;> grind
            · intro i hi; simp only [State.emit, State.pop, State.push, State.setCoro]
              rw [if_neg (by omega), if_neg (by omega)]; exact h.codB i hi
          · exact h.same rfl rfl rfl rfl rfl
  · exact h.same rfl rfl rfl rfl rfl

theorem doUser_H (P : Prog σ V E) {s : State σ V E} {who ex} (h : HInv s ex) (hc : Core s) (ha : Actor s who)
    (hn : ∀ c, who = some c → ∀ x cfg, (s.coro c).code ≠ some (.thenC x cfg .cbCalled)) (act)
    (hu : (doUser P s who act).ub = none) : HInv (doUser P s who act) ex := by
  have hlt := ha.lt hc
  have hrep := h.reply hlt hn
  have hal : ∀ o, (s.obj o).alive = true → o < s.no := fun o => hc.aliveLt
  have fin : ∀ c, who = some c → ∀ r, HInv (finish s c r) ex := by
    rintro c rfl r
    have hcl := hlt c rfl
    obtain ⟨st, hst⟩ := ha
    refine h.coros (by simp [finish, State.push, State.pop, State.emit, State.setCoro, hst]) rfl rfl ?_ rfl ?_
    · intro i; simp only [finish, State.push, State.pop, State.emit, State.setCoro]
      constructor <;> grind
    · intro i hi; simp only [finish, State.push, State.pop, State.emit, State.setCoro]
      rw [if_neg (by omega)]; exact h.codB i hi
  cases act with
  | ret v =>
    cases who with
    | none => exact h
    | some c => exact fin c rfl _
  | throw v =>
    cases who with
    | none => exact h
    | some c => exact fin c rfl _
  | call k code v args =>
    simp only [doUser] at hu ⊢
    split
    · rename_i hx; rw [if_pos hx] at hu; rw [hu] at hx; simp at hx
    · rename_i hx
      have hx' : (moveArgs s args).1.ub = none := by simpa using hx
      obtain ⟨g1, g2⟩ := moveArgs_H args h hal hx'
      have hm := moveArgs_coro args s
      have he := eff_moveArgs args s
      cases who with
      | none =>
        exact g1.spawn (fun o ho => (g2 o ho).1) (fun o ho => Or.inl (g2 o ho).2)
          (fun o ho => by
            have : o ∉ (moveArgs s args).2 := fun hm => ho (g2 o hm).2
            simp [List.count_eq_zero.2 this]) (by simp) (by simp)
      | some p =>
        have hp := hlt p rfl
        have g3 : HInv ((moveArgs s args).1.setCoro p { (moveArgs s args).1.coro p with inp := .obj (moveArgs s args).1.no }) ex := by
          refine g1.coros rfl rfl rfl ?_ rfl ?_
          · intro i; simp only [State.setCoro, hm]
            split
            · rename_i hi; subst hi; exact ⟨rfl, rfl, rfl, Or.inr (Or.inr (hn _ rfl))⟩
            · exact ⟨rfl, rfl, rfl, Or.inl rfl⟩
          · intro i hi
            have := he.nc
            simp only [State.setCoro]
            rw [if_neg (by omega)]; exact g1.codB i hi
        exact g3.spawn (fun o ho => (g2 o ho).1) (fun o ho => Or.inl (g2 o ho).2)
          (fun o ho => by
            have : o ∉ (moveArgs s args).2 := fun hm => ho (g2 o hm).2
            simp [List.count_eq_zero.2 this]) (by simp) (by simp)
  | await o =>
    cases who with
    | none => exact h
    | some c => exact awaitObj_H h hc ha (hn c rfl)
  | awaitExt now =>
    cases who with
    | none => cases now <;> exact h
    | some c =>
      cases now with
      | some r => exact (hrep (.res r)).same rfl rfl rfl rfl rfl
      | none =>
      have hcl := hlt c rfl
      obtain ⟨st, hst⟩ := ha
      refine h.coros (by simp [doUser, State.pop, State.emit, State.setCoro, hst]) rfl rfl ?_ rfl ?_
      · intro i; simp only [doUser, State.pop, State.emit, State.setCoro]
        constructor <;> grind
      · intro i hi; simp only [doUser, State.pop, State.emit, State.setCoro]
        rw [if_neg (by omega)]; exact h.codB i hi
  | drop o =>
    simp only [doUser] at hu ⊢
    split
    · rename_i hx
      refine (hrep .unit).dropObj ?_ ?_
      · intro c; simp; intro hh; exact (hc.hOk o c hh).1
      · left; simpa using usable_user hx
    · exact h.same rfl rfl rfl rfl rfl
  | moveNew src =>
    simp only [doUser] at hu ⊢
    split
    · rename_i hx
      exact (hrep _).moveObj (by simpa using hal src (usable_alive hx))
    · exact h.same rfl rfl rfl rfl rfl
  | moveAssign dst src =>
    simp only [doUser] at hu ⊢
    split
    · rename_i hx
      split
      · exact hrep _
      · split
        · exact (hrep .unit).stk (by simp [State.push]) rfl rfl rfl rfl
        · rename_i c hh
          refine HInv.deref ?_ ?_
          · refine (hrep .unit).objs (by simp [State.push, State.setObj]) rfl rfl rfl ?_ ?_ <;>
              simp only [State.push, State.setObj] <;> grind
          · simp at hh; have := (hc.hOk dst c hh).1; simpa [State.push, State.setObj] using this
    · exact h.same rfl rfl rfl rfl rfl
  | mkNull k =>
    simp only [doUser]
    exact (h.mkNull (k := k)).reply (by simpa [State.setObj] using hlt) (by simpa [State.setObj] using hn) _
  | isReady o =>
    simp only [doUser]
    split
    · split
      · exact (hrep _).same rfl rfl rfl rfl rfl
      · split
        · exact h.same rfl rfl rfl rfl rfl
        · exact (hrep _).same rfl rfl rfl rfl rfl
    · exact h.same rfl rfl rfl rfl rfl
  | waitFor o b =>
    simp only [doUser]
    split
    · refine HInv.spawnTok (f := .waitA _ _) ?_ rfl (by simp) (by simp)
      exact h.same rfl rfl rfl rfl rfl
    · exact h.same rfl rfl rfl rfl rfl
  | thenL o cfg =>
    simp only [doUser]
    split
    · refine HInv.spawn ?_ (by simp) (by simp) (by simp) (by simp) (by simp)
      exact HInv.reply (s := s.emit _) (h.same rfl rfl rfl rfl rfl) hlt hn _
    · exact h.same rfl rfl rfl rfl rfl
  | thenR o cfg =>
    simp only [doUser]
    split
    · rename_i hx
      have hol := hal o (usable_alive hx)
      have hm : HInv (Task.moveObj (s.emit (.thenMade s.nc (s.obj o).handle (cfg.plain.info true))) o (.param s.nc)) ex :=
        HInv.moveObj (h.same rfl rfl rfl rfl rfl) hol
      refine HInv.spawn (hm.reply hlt hn _) ?_ ?_ ?_ (by simp) (by simp)
      · intro x hx; simp at hx; subst hx; simp [Task.moveObj, State.emit, State.setObj]
      · intro x hx; simp at hx; subst hx; right
        simp [Task.moveObj, State.emit, State.setObj]
      · intro x hx; simp only [List.count_cons, List.count_nil]; split <;> omega
    · exact h.same rfl rfl rfl rfl rfl
  | connect o q code =>
    simp only [doUser]
    split
    · refine HInv.spawnTok (f := .drops [_]) ?_ (by simp [tokOf]) (by simp) (by simp)
      exact HInv.reply (s := s.emit _) (h.same rfl rfl rfl rfl rfl) hlt hn _
    · exact h.same rfl rfl rfl rfl rfl
  | delCtx q =>
    simp only [doUser]
    have : HInv { s with qalive := fun i => if i = q then false else s.qalive i } ex := h.same rfl rfl rfl rfl rfl
    exact (this.reply hlt hn _).same rfl rfl rfl rfl rfl
  | note n => exact (hrep _).same rfl rfl rfl rfl rfl

/-! ### No library fault from hidden objects -/

/-- Neither a hidden-object fault nor an impossible program point. -/
def NL (s : State σ V E) : Prop := s.ub ≠ some .libObj ∧ s.ub ≠ some .stuck

theorem NL.of_none {s : State σ V E} (h : s.ub = none) : NL s := by simp [NL, h]

theorem deref_NL {s : State σ V E} (h : NL s) (c) : NL (deref s c) := by
  unfold deref NL
  split
  · simp [State.fail]
  split
  · simp [State.fail]
  · split
    · simp [State.fail]
    · exact h
  · exact h

theorem dropObj_NL {s : State σ V E} (h : NL s) (o) : NL (dropObj s o) := by
  unfold dropObj
  split
  · exact h
  · exact deref_NL (by exact h) _

theorem spawn_NL {P : Prog σ V E} {s : State σ V E} {k code ps v own} (h : NL s) : NL (spawn P s k code ps v own) := by
  unfold NL; rw [spawn_ub]; exact h

theorem reply_NL {s : State σ V E} {who i} (h : NL s) : NL (s.reply who i) := by unfold NL; rw [reply_ub]; exact h

theorem moveArgs_NL (as : List Nat) : ∀ {s : State σ V E}, NL s → NL (moveArgs s as).1 := by
  induction as with
  | nil => intro s h; exact h
  | cons a as ih =>
    intro s h
    simp only [moveArgs]
    split
    · exact ih (by exact h)
    · simp [NL, State.fail]

theorem awaitObj_NL {P : Prog σ V E} {s : State σ V E} {a o priv} (h : NL s)
    (hp : priv = true → s.usable true o = true ∨ (s.obj o).owner = .user) : NL (awaitObj P s a o priv) := by
  unfold awaitObj
  split
  · split
    · split
      · exact h
      · simp [NL, State.fail]
    · split
      · simp [NL, State.fail]
      split
      · split
        · simp [NL, State.fail]
        · exact h
      · split
        · exact h
        · split
          · exact h
          · simp [NL, State.fail]
  · rename_i hx
    cases priv with
    | false => simp [NL, State.fail]
    | true =>
      rcases hp rfl with h1 | h1
      · exact absurd h1 hx
      · simp [NL, State.fail, State.objFault, h1]

theorem doUser_NL (P : Prog σ V E) {s : State σ V E} {who} (h : NL s) (act) : NL (doUser P s who act) := by
  have hf : NL (s.fail .badObj) := by simp [NL, State.fail]
  cases act with
  | ret v => cases who with | none => exact h | some c => exact h
  | throw v => cases who with | none => exact h | some c => exact h
  | call k code v args =>
    simp only [doUser]
    split
    · exact moveArgs_NL _ h
    · refine spawn_NL ?_
      cases who with
      | none => exact moveArgs_NL _ h
      | some p => exact moveArgs_NL _ h
  | await o => cases who with | none => exact h | some c => exact awaitObj_NL h (by simp)
  | awaitExt now => cases who with | none => cases now <;> exact h | some c => cases now <;> exact h
  | drop o =>
    simp only [doUser]; split
    · exact dropObj_NL (reply_NL h) _
    · exact hf
  | moveNew o =>
    simp only [doUser]; split
    · have := reply_NL (who := who) (i := .obj s.no) h; exact this
    · exact hf
  | moveAssign dst src =>
    simp only [doUser]
    have := reply_NL (who := who) (i := .unit) h
    split
    · split
      · exact this
      · split
        · exact this
        · exact deref_NL (by exact this) _
    · exact hf
  | mkNull k => exact reply_NL (by exact h)
  | isReady o =>
    have := fun b => reply_NL (who := who) (i := .flag b) h
    simp only [doUser]
    split
    · split
      · exact this _
      · split
        · simp [NL, State.fail]
        · exact this _
    · exact hf
  | waitFor o b =>
    simp only [doUser]
    split
    · exact spawn_NL (by exact h)
    · exact hf
  | thenL o cfg =>
    simp only [doUser]
    split
    · exact spawn_NL (reply_NL (by exact h))
    · exact hf
  | thenR o cfg =>
    simp only [doUser]
    split
    · exact spawn_NL (reply_NL (by exact h))
    · exact hf
  | connect o q code =>
    simp only [doUser]
    have := reply_NL (s := s.emit (.thenMade s.nc (s.obj o).handle ⟨false, some q, false, false⟩)) (who := who) (i := .unit) h
    split
    · exact spawn_NL (by exact this)
    · exact hf
  | delCtx q =>
    have := reply_NL (s := { s with qalive := fun i => if i = q then false else s.qalive i }) (who := who) (i := .unit) h
    exact this
  | note n => exact reply_NL (who := who) (i := .unit) h

theorem codeNext_H (P : Prog σ V E) (ow) (code : Code σ V E) (i) :
    (∀ x cfg, (codeNext P ow code i).1 = .thenC x cfg .cbCalled → ∃ k s v, (codeNext P ow code i).2 = .callTmp k s v) ∧
    (∀ x cfg t, (codeNext P ow code i).1 = .thenC x cfg (.cbAwait t) → code = .thenC x cfg .cbCalled ∧ i = .obj t) ∧
    (∀ o, (codeNext P ow code i).2 = .awaitTmp o → o ∈ ow ∨ ∃ x cfg, (codeNext P ow code i).1 = .thenC x cfg (.cbAwait o)) ∧
    (∀ t, (codeNext P ow code i).2 = .dropTmp t → (∃ x cfg, code = .thenC x cfg (.cbAwait t)) ∧
      ∃ x cfg r, (codeNext P ow code i).1 = .thenC x cfg (.cbDrop r)) := by
  cases code with
  | user s => simp [codeNext]
  | waitRun w o ph =>
    cases ph <;> cases i <;> simp [codeNext, waitNext]
  | thenC o cfg ph =>
    cases ph with
    | init => simp only [codeNext, thenNext]; split <;> simp_all
    | waiting =>
      cases i <;> simp [codeNext, thenNext]
      rename_i r
      cases r with
      | val v => cases hg : cfg.guard <;> simp [thenNext, hg]
      | exc e =>
        simp only [thenNext]
        split
        · cases hg : cfg.err <;> simp
        · simp
    | guard v =>
      cases i <;> simp [codeNext, thenNext]
      rename_i b
      cases b <;> simp [thenNext]
    | cbStart v => simp only [codeNext, thenNext]; cases hg : cfg.cbTask <;> simp
    | cbRun s => simp [codeNext, thenNext]
    | cbCalled => cases i <;> simp [codeNext, thenNext]
    | cbAwait t => cases i <;> simp [codeNext, thenNext]
    | cbDrop r => cases r <;> simp [codeNext, thenNext]
    | errStart s e => simp [codeNext, thenNext]
    | errRun s => simp [codeNext, thenNext]
    | over => simp [codeNext, thenNext]

theorem HInv.setCode {s : State σ V E} (h : HInv s none) {c} (hlt : c < s.nc) (code : Code σ V E)
    (hc : ∀ x cfg t, code = .thenC x cfg (.cbAwait t) →
      (s.coro c).code = some (.thenC x cfg .cbCalled) ∧ (s.coro c).inp = .obj t) :
    HInv (s.setCoro c { s.coro c with code := some code }) (some c) := by
  obtain ⟨a1,a2,a3,a4,a5,a6,a7,a8,a9⟩ := h
  constructor <;> simp only [State.setCoro] <;> grind

theorem doAct_H (P : Prog σ V E) {s : State σ V E} {c} (h : HInv s (some c)) (hc : Core s) (ha : Actor s (some c))
    (act : Act σ V E)
    (h1 : (∃ x cfg, (s.coro c).code = some (.thenC x cfg .cbCalled)) → ∃ k s v, act = .callTmp k s v)
    (h2 : ∀ o, act = .dropTmp o → (s.obj o).owner = .tmp c ∧ ∃ x cfg r, (s.coro c).code = some (.thenC x cfg (.cbDrop r)))
    (htk : ∀ o, o ∈ toks s.stack → (s.obj o).owner ≠ .tmp c)
    (hu : (doAct P s c act).ub = none) : HInv (doAct P s c act) none := by
  have hlt := ha.lt hc
  have hno : (∀ k s v, act ≠ .callTmp k s v) → ∀ x cfg, (s.coro c).code ≠ some (.thenC x cfg .cbCalled) := by
    intro hk x cfg hx
    obtain ⟨k, s', v, hh⟩ := h1 ⟨x, cfg, hx⟩
    exact hk _ _ _ hh
  have h0 : (∀ k s v, act ≠ .callTmp k s v) → HInv s none := by
    intro hk
    refine h.unex ?_
    intro c' hc' x cfg t hx
    cases hc'
    exact absurd hx (hno hk x cfg)
  have hno' : (∀ k s v, act ≠ .callTmp k s v) → ∀ c', some c = some c' → ∀ x cfg, (s.coro c').code ≠ some (.thenC x cfg .cbCalled) := by
    intro hk c' hc'; cases hc'; exact hno hk
  cases act with
  | u a => exact doUser_H P (h0 (by simp)) hc ha (hno' (by simp)) a hu
  | markCb v => exact ((h0 (by simp)).reply hlt (hno' (by simp)) .unit).same rfl rfl rfl rfl rfl
  | markErr v => exact ((h0 (by simp)).reply hlt (hno' (by simp)) .unit).same rfl rfl rfl rfl rfl
  | ctxAlive q v =>
    have := fun b => (h0 (by simp)).reply hlt (hno' (by simp)) (.flag b)
    simp only [doAct]
    split
    · exact (this _).same rfl rfl rfl rfl rfl
    · exact (this _).same rfl rfl rfl rfl rfl
  | waitDone w r =>
    simp only [doAct]
    split
    · have : HInv (s.setW w { s.wctx w with fin := some r, exit := true }) none := (h0 (by simp)).same rfl rfl rfl rfl rfl
      exact this.reply hlt (hno' (by simp)) .unit
    · exact (h0 (by simp)).same rfl rfl rfl rfl rfl
  | callTmp k code v =>
    simp only [doAct]
    have hcl := hlt c rfl
    refine HInv.unex (ex := some c) ?_ ?_
    · refine HInv.spawn ?_ (by simp) (by simp) (by simp) (by simp) (by simp)
      obtain ⟨a1,a2,a3,a4,a5,a6,a7,a8,a9⟩ := h
      constructor <;> simp only [State.setCoro, State.emit] <;> grind
    · intro c' hc' x cfg t hx hi
      cases hc'
      unfold Task.spawn at hi ⊢
      cases k
      all_goals
        simp only [State.push, State.emit, State.setObj, State.setCoro] at hi ⊢
        grind
  | awaitTmp o => exact awaitObj_H (h0 (by simp)) hc ha (hno (by simp))
  | dropTmp o =>
    obtain ⟨g1, x, cfg, r, g2⟩ := h2 o rfl
    simp only [doAct]
    split
    · refine ((h0 (by simp)).reply hlt (hno' (by simp)) .unit).dropObj ?_ ?_
      · intro c'; simp; intro hh; exact (hc.hOk o c' hh).1
      · right
        simp only [reply_stack, reply_obj]
        refine ⟨fun hm => htk o hm g1, by simp [g1], ?_⟩
        intro c' hc'
        rw [g1] at hc'; cases hc'
        simp [State.reply, State.setCoro, g2]
    · exact (h0 (by simp)).same rfl rfl rfl rfl rfl
  | stuck => exact (h0 (by simp)).same rfl rfl rfl rfl rfl

theorem doAct_NL (P : Prog σ V E) {s : State σ V E} {c} (h : NL s) (act : Act σ V E) (hs : act ≠ .stuck)
    (hp : ∀ o, act = .awaitTmp o ∨ act = .dropTmp o → s.usable true o = true ∨ (s.obj o).owner = .user) : NL (doAct P s c act) := by
  cases act with
  | u a => exact doUser_NL P h a
  | markCb v => exact h
  | markErr v => exact h
  | ctxAlive q v => simp only [doAct]; split <;> exact h
  | waitDone w r =>
    simp only [doAct]; split
    · exact h
    · simp [NL, State.fail]
  | callTmp k code v => exact spawn_NL (P := P) (by exact h)
  | awaitTmp o => exact awaitObj_NL h (fun _ => hp o (Or.inl rfl))
  | dropTmp o =>
    simp only [doAct]; split
    · exact dropObj_NL (by exact h) _
    · rename_i hx
      rcases hp o (Or.inr rfl) with h1 | h1
      · exact absurd h1 hx
      · simp [NL, State.fail, State.objFault, h1]
  | stuck => exact absurd rfl hs

theorem waitReturn_NL (P : Prog σ V E) {s : State σ V E} (h : NL s) (w) : NL (waitReturn P s w) := by
  unfold waitReturn
  dsimp only
  have h0 : NL ((s.setW w { s.wctx w with alive := false }).pop) := h
  split
  · have := fun i => reply_NL (who := (s.wctx w).caller) (i := i) h0; exact this _
  · split
    · have := fun i => reply_NL (who := (s.wctx w).caller) (i := i) h0; exact this _
    · simp [NL, State.fail]

theorem waitReturn_H (P : Prog σ V E) {s : State σ V E} (h : HInv s none) (hw : WInv s) {f st w} (hs : s.stack = f :: st)
    (hf : wOf f = some w) (ht : toks (f :: st) = toks st) : HInv (waitReturn P s w) none := by
  have h1 := hw.swf
  rw [hs] at h1
  obtain ⟨_, _, h2⟩ := h1.1 w hf
  have key : ∀ i e, HInv ((((s.setW w { s.wctx w with alive := false }).pop).reply (s.wctx w).caller i).emit e) none := by
    intro i e
    have h0 : HInv ((s.setW w { s.wctx w with alive := false }).pop) none :=
      h.stk (by simp [State.setW, State.pop, hs, ht]) rfl rfl rfl rfl
    refine HInv.same (s := ((s.setW w { s.wctx w with alive := false }).pop).reply (s.wctx w).caller i)
      (HInv.reply (who := (s.wctx w).caller) h0 ?_ ?_ i) rfl rfl rfl rfl rfl
    · exact hw.callerLt w
    · intro c hcl x cfg hx
      have := (h2 c hcl).2 _ hx
      simp [userish] at this
  unfold waitReturn
  dsimp only
  split
  · exact key _ _
  · split
    · exact key _ _
    · exact h.same rfl rfl rfl rfl rfl

theorem run_H (P : Prog σ V E) {s : State σ V E} (h : Inv2 s) (hh : HInv s none) (hu : s.ub = none) :
    NL (run P s) ∧ ((run P s).ub = none → HInv (run P s) none) := by
  obtain ⟨⟨hc, hA⟩, hp, hw⟩ := h
  have hn0 : NL s := .of_none hu
  unfold run
  split
  · exact ⟨hn0, fun _ => hh⟩
  · rename_i c st hst
    have hlt := hc.bodyLt (c := c) (by simp [hst])
    have hr := (hc.bodyR c).1 (by simp [hst])
    have hf := hc.notFreed hlt (by simp [hr])
    have hcs := hc.codeS c hlt
    split
    · simp_all
    cases hcode : (s.coro c).code with
    | none => simp [hcode] at hcs
    | some code =>
      dsimp only
      obtain ⟨g1, _, _⟩ := codeNext_spec P (s.coro c).owned code (s.coro c).inp ((hp c code hcode).1 (Or.inl hr))
      obtain ⟨k1, k2, k3, k4⟩ := codeNext_H P (s.coro c).owned code (s.coro c).inp
      generalize codeNext P (s.coro c).owned code (s.coro c).inp = r at *
      have h1 : Core (s.setCoro c { s.coro c with code := some r.1 }) :=
        hc.setCoroEq hlt ⟨rfl, rfl, rfl, rfl, rfl, rfl, rfl, rfl, by simp [hcode]⟩
      have hH : HInv (s.setCoro c { s.coro c with code := some r.1 }) (some c) := by
        refine hh.setCode hlt r.1 ?_
        intro x cfg t hx
        obtain ⟨e1, e2⟩ := k2 x cfg t hx
        exact ⟨by rw [hcode, e1], e2⟩
      have hac : Actor (s.setCoro c { s.coro c with code := some r.1 }) (some c) := ⟨st, hst⟩
      constructor
      · refine doAct_NL P (by exact hn0) r.2 g1 ?_
        rintro o (ho | ho)
        · rcases k3 o ho with hm | ⟨x, cfg, hx⟩
          · rcases hh.own c o hf hm with h1 | h1
            · exact Or.inr h1
            · left; simp [State.usable, State.setCoro, h1.2]
          · obtain ⟨e1, e2⟩ := k2 x cfg o hx
            have := hh.called c (by simp) x cfg o (by rw [hcode, e1]) e2
            left; simp [State.usable, State.setCoro, this.2.2]
        · obtain ⟨⟨x, cfg, hx⟩, _⟩ := k4 o ho
          have := hh.tmp c x cfg o (by rw [hcode, hx])
          left; simp [State.usable, State.setCoro, this.2.2]
      · intro hu'
        refine doAct_H P hH h1 hac r.2 ?_ ?_ ?_ hu'
        · rintro ⟨x, cfg, hx⟩
          simp [State.setCoro] at hx
          exact k1 x cfg hx
        · intro o ho
          obtain ⟨⟨x, cfg, hx⟩, x', cfg', r', hr'⟩ := k4 o ho
          have := hh.tmp c x cfg o (by rw [hcode, hx])
          exact ⟨this.2.1, x', cfg', r', by simp [State.setCoro, hr']⟩
        · intro o ho hto
          have hto' : (s.obj o).owner = .tmp c := hto
          have := hh.tok o ho
          simp [hto'] at this
  · rename_i c st hst
    have hcc := (hc.finR c).1 (by simp [hst])
    have hlt := hc.statusLt (c := c) (by simp [hcc])
    split
    · simp [NL, State.fail]
    split
    · rename_i a rest hfin
      have ha : (s.coro a).status = .waitTask c := by
        rw [← hc.pendR c a]; simp [pend, hcc, hfin]
      have hla := hc.statusLt (c := a) (by simp [ha])
      have hne : a ≠ c := by rintro rfl; simp [hcc] at ha
      dsimp only
      split
      · simp [NL, State.fail]
      split
      · split
        · simp [NL, State.fail]
        · refine ⟨hn0, fun _ => ?_⟩
          refine hh.coros (by simp [State.push, State.emit, State.setCoro]) rfl rfl ?_ rfl ?_
          · intro i; simp only [State.push, State.emit, State.setCoro]
            constructor <;> grind
          · intro i hi; simp only [State.push, State.emit, State.setCoro]
            rw [if_neg (by omega), if_neg (by omega), if_neg (by omega)]; exact hh.codB i hi
      · simp [NL, State.fail]
    · refine ⟨deref_NL (by exact hn0) _, fun _ => ?_⟩
      refine HInv.deref ?_ hlt
      refine hh.coros (by simp [State.pop, State.setCoro, hst]) rfl rfl ?_ rfl ?_
      · intro i; simp only [State.pop, State.setCoro]
        constructor <;> grind
      · intro i hi; simp only [State.pop, State.setCoro]
        rw [if_neg (by omega)]; exact hh.codB i hi
  · rename_i os st hst
    split
    · exact ⟨hn0, fun _ => hh.stk (by simp [State.pop, hst]) rfl rfl rfl rfl⟩
    · rename_i o os
      have h1 : HInv (s.pop.push (.drops os)) none := by
        have htk : ∀ x, x ∈ toks (s.pop.push (.drops os)).stack → x ∈ toks s.stack := by
          simp [State.pop, State.push, hst]; intro x hx; exact Or.inr hx
        obtain ⟨a1,a2,a3,a4,a5,a6,a7,a8,a9⟩ := hh
        refine ⟨fun x hx => a1 x (htk x hx), fun x hx => a2 x (htk x hx), ?_, a4, a5, a6, a7, a8, a9⟩
        intro x hx
        have := a3 x hx
        simp only [State.pop, State.push, hst, toks_drops, List.cons_append, List.count_cons, List.tail_cons] at this ⊢
        omega
      have hin : o ∈ toks s.stack := by simp [hst]
      have ht := hh.tok o hin
      dsimp only
      split
      · refine ⟨dropObj_NL (by exact hn0) _, fun _ => ?_⟩
        refine h1.dropObj (fun c hx => (hc.hOk o c hx).1) ?_
        rcases ht with ht | ⟨ht, ht'⟩
        · exact Or.inl ht
        · right
          refine ⟨?_, ?_, ?_⟩
          · have hne : (s.obj o).owner ≠ .user := by
              rcases ht' with h' | ⟨c, h', _⟩ <;> simp [h']
            have := hh.tokN o hne
            simp only [hst, toks_drops, List.cons_append, List.count_cons_self] at this
            have h0 : (os ++ toks st).count o = 0 := by omega
            simp only [State.pop, State.push, hst, List.tail_cons, toks_drops]
            exact List.count_eq_zero.1 h0
          · intro c hcc
            have hcc' : (s.obj o).owner = .param c := hcc
            rcases ht' with h' | ⟨c', h', h''⟩
            · simp [hcc'] at h'
            · rw [hcc'] at h'; cases h'; exact h''
          · intro c hcc
            have hcc' : (s.obj o).owner = .tmp c := hcc
            simp [hcc'] at ht'
      · rename_i hx
        refine ⟨?_, by simp [State.fail]⟩
        rcases ht with ht | ⟨ht, _⟩
        · simp [NL, State.fail, State.objFault, State.pop, State.push, ht]
        · simp [State.usable, State.pop, State.push, ht] at hx
  · rename_i dst src st hst
    dsimp only
    split
    · refine ⟨hn0, fun _ => ?_⟩
      refine hh.objs (by simp [State.pop, State.setObj, hst]) rfl rfl rfl ?_ ?_ <;> simp only [State.pop, State.setObj] <;> grind
    · simp [NL, State.fail]
  · rename_i w o st hst
    have h1 : HInv (s.pop.push (.waitB w)) none := by
      have htk : ∀ x, x ∈ toks (s.pop.push (.waitB w)).stack → x ∈ toks s.stack := by
        simp [State.pop, State.push, hst]; intro x hx; exact Or.inr hx
      obtain ⟨a1,a2,a3,a4,a5,a6,a7,a8,a9⟩ := hh
      refine ⟨fun x hx => a1 x (htk x hx), fun x hx => a2 x (htk x hx), ?_, a4, a5, a6, a7, a8, a9⟩
      intro x hx
      have := a3 x hx
      simp only [State.pop, State.push, hst, toks_waitA, toks_waitB, List.count_cons, List.tail_cons] at this ⊢
      omega
    have hin : o ∈ toks s.stack := by simp [hst]
    have ht := hh.tok o hin
    dsimp only
    split
    · refine ⟨dropObj_NL (by exact hn0) _, fun _ => ?_⟩
      refine h1.dropObj (fun c hx => (hc.hOk o c hx).1) ?_
      rcases ht with ht | ⟨ht, ht'⟩
      · exact Or.inl ht
      · right
        refine ⟨?_, ?_, ?_⟩
        · have hne : (s.obj o).owner ≠ .user := by
            rcases ht' with h' | ⟨c, h', _⟩ <;> simp [h']
          have := hh.tokN o hne
          simp only [hst, toks_waitA, List.count_cons_self] at this
          have h0 : (toks st).count o = 0 := by omega
          simp only [State.pop, State.push, hst, List.tail_cons, toks_waitB]
          exact List.count_eq_zero.1 h0
        · intro c hcc
          have hcc' : (s.obj o).owner = .param c := hcc
          rcases ht' with h' | ⟨c', h', h''⟩
          · simp [hcc'] at h'
          · rw [hcc'] at h'; cases h'; exact h''
        · intro c hcc
          have hcc' : (s.obj o).owner = .tmp c := hcc
          simp [hcc'] at ht'
    · rename_i hx
      refine ⟨?_, by simp [State.fail]⟩
      rcases ht with ht | ⟨ht, _⟩
      · simp [NL, State.fail, State.objFault, State.pop, State.push, ht]
      · simp [State.usable, State.pop, State.push, ht] at hx
  · rename_i w st hst
    split
    · exact ⟨waitReturn_NL P hn0 w, fun _ => waitReturn_H P hh hw hst rfl rfl⟩
    · exact ⟨hn0, fun _ => hh.stk (by simp [State.pop, State.push, State.emit, hst]) rfl rfl rfl rfl⟩
  · rename_i w st hst
    split
    · exact ⟨waitReturn_NL P hn0 w, fun _ => waitReturn_H P hh hw hst rfl rfl⟩
    · exact ⟨hn0, fun _ => hh⟩

theorem step_H (P : Prog σ V E) {s : State σ V E} (h : Inv2 s) (hh : HInv s none) (hu : s.ub = none) (op) :
    NL (step P s op) ∧ ((step P s op).ub = none → HInv (step P s op) none) := by
  have hn0 : NL s := .of_none hu
  unfold step
  rw [if_neg (by simp [hu])]
  cases op with
  | run => exact run_H P h hh hu
  | main a =>
    dsimp only
    split
    · exact ⟨doUser_NL P hn0 a, fun hu' => doUser_H P hh h.i1.core (who := none) trivial (by simp) a hu'⟩
    · exact ⟨hn0, fun _ => hh⟩
  | fire c r =>
    dsimp only
    split
    · rename_i hx
      simp only [Bool.and_eq_true, decide_eq_true_eq] at hx
      have hlt := h.i1.core.statusLt (c := c) (by simp [hx.2])
      refine ⟨hn0, fun _ => ?_⟩
      refine hh.coros (by simp [State.push, State.emit, State.setCoro]) rfl rfl ?_ rfl ?_
      · intro i; simp only [State.push, State.emit, State.setCoro]
        constructor <;> grind
      · intro i hi; simp only [State.push, State.emit, State.setCoro]
        rw [if_neg (by omega)]; exact hh.codB i hi
    · exact ⟨hn0, fun _ => hh⟩
  | exitLoop w =>
    dsimp only
    split
    · exact ⟨hn0, fun _ => hh.same rfl rfl rfl rfl rfl⟩
    · exact ⟨hn0, fun _ => hh⟩

/-! ### The full invariant -/

structure Inv (s : State σ V E) : Prop where
  i2 : Inv2 s
  h : HInv s none

theorem inv_init : Inv (init : State σ V E) := ⟨inv2_init, hinv_init⟩

/-- Every step from a good state leads to a good state or to a misuse fault. -/
theorem step_inv (P : Prog σ V E) {s : State σ V E} (h : Inv s) (hu : s.ub = none) (op) :
    ((step P s op).ub = none ∧ Inv (step P s op)) ∨ ∃ u, (step P s op).ub = some u ∧ u.misuse = true := by
  have hH := step_H P h.i2 h.h hu op
  rcases step_ok P h.i2.i1 h.i2.w.callerLt hu op with ⟨h1, h2⟩ | ⟨u, h1, h2⟩
  · left
    obtain ⟨p, w⟩ := step_PW P h.i2 op hu h1
    exact ⟨h1, ⟨h2, p, w⟩, hH.2 h1⟩
  · right
    refine ⟨u, h1, ?_⟩
    rcases h2 with h2 | rfl | rfl
    · exact h2
    · exact absurd h1 hH.1.1
    · exact absurd h1 hH.1.2

theorem step_ub (P : Prog σ V E) {s : State σ V E} (hu : s.ub ≠ none) (op) : step P s op = s := by
  unfold step; rw [if_pos (by cases h : s.ub <;> simp_all)]

theorem exec_append (P : Prog σ V E) (xs ys : List (Op σ V E)) : exec P (xs ++ ys) = ys.foldl (step P) (exec P xs) := by
  simp [exec]

theorem exec_snoc (P : Prog σ V E) (xs : List (Op σ V E)) (op) : exec P (xs ++ [op]) = step P (exec P xs) op := by
  simp [exec]

/-- Schedule induction with the full invariant. -/
theorem exec_induction {P : Prog σ V E} {I : State σ V E → Prop} (h0 : I init)
    (hs : ∀ s op, Inv s → s.ub = none → I s → I (step P s op)) (ops) :
    I (exec P ops) ∧ ((exec P ops).ub = none → Inv (exec P ops)) ∧
      (∀ u, (exec P ops).ub = some u → u.misuse = true) := by
  rw [← List.reverse_reverse ops]
  generalize ops.reverse = r
  induction r with
  | nil => exact ⟨h0, fun _ => inv_init, by simp [exec, init]⟩
  | cons op r ih =>
    obtain ⟨i1, i2, i3⟩ := ih
    rw [List.reverse_cons, exec_snoc]
    cases hu : (exec P r.reverse).ub with
    | some u =>
      rw [step_ub P (by simp [hu])]
      exact ⟨i1, i2, i3⟩
    | none =>
      refine ⟨hs _ op (i2 hu) hu i1, ?_⟩
      rcases step_inv P (i2 hu) hu op with ⟨h1, h2⟩ | ⟨u, h1, h2⟩
      · exact ⟨fun _ => h2, by simp [h1]⟩
      · refine ⟨by simp [h1], ?_⟩
        intro u' hu'; rw [h1] at hu'; cases hu'; exact h2

end QCoro.Task
