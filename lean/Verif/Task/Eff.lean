import Verif.Task.Phase

/-! What no action ever changes, and how actions change the stack. -/
namespace QCoro.Task
variable {σ V E : Type}

/-- Frame conditions that hold for every action. -/
structure Eff (s s' : State σ V E) : Prop where
  nc : s.nc ≤ s'.nc
  no : s.no ≤ s'.no
  code : ∀ i, i < s.nc → (s'.coro i).code = (s.coro i).code
  kind : ∀ i, i < s.nc → (s'.coro i).kind = (s.coro i).kind
  owned : ∀ i, i < s.nc → (s'.coro i).owned = (s.coro i).owned
  freed : ∀ i, i < s.nc → (s.coro i).freed = true → (s'.coro i).freed = true
  owner : ∀ o, o < s.no → (s'.obj o).owner = (s.obj o).owner
  okind : ∀ o, o < s.no → (s'.obj o).kind = (s.obj o).kind
  dead : ∀ o, o < s.no → (s.obj o).alive = false → (s'.obj o).alive = false

theorem Eff.refl (s : State σ V E) : Eff s s := by constructor <;> simp
theorem Eff.of_eq {s s' : State σ V E} (h1 : s'.nc = s.nc) (h2 : s'.no = s.no) (h3 : s'.coro = s.coro)
    (h4 : s'.obj = s.obj) : Eff s s' := by constructor <;> simp_all

theorem Eff.trans {a b c : State σ V E} (h : Eff a b) (k : Eff b c) : Eff a c := by
  obtain ⟨a1,a2,a3,a4,a5,a6,a7,a8,a9⟩ := h
  obtain ⟨b1,b2,b3,b4,b5,b6,b7,b8,b9⟩ := k
  constructor
  · omega
  · omega
  · intro i hi; rw [b3 i (by omega), a3 i hi]
  · intro i hi; rw [b4 i (by omega), a4 i hi]
  · intro i hi; rw [b5 i (by omega), a5 i hi]
  · intro i hi h; exact b6 i (by omega) (a6 i hi h)
  · intro i hi; rw [b7 i (by omega), a7 i hi]
  · intro i hi; rw [b8 i (by omega), a8 i hi]
  · intro i hi h; exact b9 i (by omega) (a9 i hi h)

/-- Prove a frame condition by computation. -/
macro "eff_tac" : tactic => `(tactic| (
  constructor <;> simp only [State.push, State.pop, State.emit, State.fail, State.setObj, State.setCoro, State.setW,
    State.reply] <;> grind))

theorem eff_setCoro {s : State σ V E} {c} {x : Coro σ V E} (h1 : x.code = (s.coro c).code) (h2 : x.kind = (s.coro c).kind)
    (h3 : x.owned = (s.coro c).owned) (h4 : x.freed = (s.coro c).freed ∨ x.freed = true) : Eff s (s.setCoro c x) := by
  constructor <;> simp only [State.setCoro] <;> grind

theorem eff_reply (s : State σ V E) (who i) : Eff s (s.reply who i) := by
  cases who with
  | none => exact Eff.refl _
  | some c => exact eff_setCoro rfl rfl rfl (Or.inl rfl)

theorem eff_deref (s : State σ V E) (c) : Eff s (deref s c) := by
  unfold deref
  split
  · exact Eff.of_eq rfl rfl rfl rfl
  split
  · exact Eff.of_eq rfl rfl rfl rfl
  · split
    · exact Eff.of_eq rfl rfl rfl rfl
    · eff_tac
  · exact eff_setCoro rfl rfl rfl (Or.inl rfl)

theorem eff_setObj {s : State σ V E} {o} {x : Obj} (h1 : x.owner = (s.obj o).owner) (h2 : x.kind = (s.obj o).kind)
    (h3 : x.alive = (s.obj o).alive ∨ x.alive = false) : Eff s (s.setObj o x) := by
  constructor <;> simp only [State.setObj] <;> grind

theorem eff_newObj (s : State σ V E) (x : Obj) : Eff s { s.setObj s.no x with no := s.no + 1 } := by
  constructor <;> simp only [State.setObj] <;> grind

theorem eff_dropObj (s : State σ V E) (o) : Eff s (dropObj s o) := by
  unfold dropObj
  split
  · exact eff_setObj rfl rfl (Or.inr rfl)
  · refine Eff.trans ?_ (eff_deref _ _); eff_tac

theorem eff_moveObj (s : State σ V E) (o own) : Eff s (moveObj s o own) := by
  unfold moveObj
  eff_tac

theorem eff_spawn (P : Prog σ V E) (s : State σ V E) (k code ps v own) : Eff s (spawn P s k code ps v own) := by
  unfold spawn
  cases k <;> constructor <;> simp only [State.push, State.emit, State.setObj, State.setCoro] <;> grind

theorem eff_moveArgs (as : List Nat) : ∀ s : State σ V E, Eff s (moveArgs s as).1 := by
  induction as with
  | nil => exact Eff.refl
  | cons a as ih =>
    intro s
    simp only [moveArgs]
    split
    · exact (eff_moveObj s a .user).trans (ih _)
    · exact Eff.of_eq rfl rfl rfl rfl

theorem eff_awaitObj (P : Prog σ V E) (s : State σ V E) (a o priv) : Eff s (awaitObj P s a o priv) := by
  unfold awaitObj
  split
  · split
    · split <;> eff_tac
    · split
      · eff_tac
      split
      · split <;> eff_tac
      · split
        · eff_tac
        · split <;> eff_tac
  · eff_tac

theorem eff_finish (s : State σ V E) (c r) : Eff s (finish s c r) := by
  unfold finish; eff_tac

theorem eff_doUser (P : Prog σ V E) (s : State σ V E) (who act) : Eff s (doUser P s who act) := by
  cases act with
  | ret v => cases who with | none => exact Eff.refl _ | some c => exact eff_finish _ _ _
  | throw v => cases who with | none => exact Eff.refl _ | some c => exact eff_finish _ _ _
  | call k code v args =>
    simp only [doUser]
    split
    · exact eff_moveArgs _ _
    · refine (eff_moveArgs args s).trans (Eff.trans ?_ (eff_spawn _ _ _ _ _ _ _))
      cases who with
      | none => exact Eff.refl _
      | some p => dsimp only; eff_tac
  | await o => cases who with | none => exact Eff.refl _ | some c => exact eff_awaitObj _ _ _ _ _
  | awaitExt now =>
    cases who with
    | none => cases now <;> exact Eff.refl _
    | some c =>
      cases now with
      | some r => exact Eff.trans (b := (s.emit (.extSusp c)).emit (.extRes c r)) (Eff.of_eq rfl rfl rfl rfl) (eff_reply ((s.emit (.extSusp c)).emit (.extRes c r)) (some c) (.res r))
      | none => simp only [doUser]; eff_tac
  | drop o =>
    simp only [doUser]
    split
    · exact (eff_reply _ _ _).trans (eff_dropObj _ _)
    · exact Eff.of_eq rfl rfl rfl rfl
  | moveNew o =>
    simp only [doUser]
    split
    · exact (eff_reply _ _ _).trans (eff_moveObj _ _ _)
    · exact Eff.of_eq rfl rfl rfl rfl
  | moveAssign dst src =>
    simp only [doUser]
    split
    · split
      · exact eff_reply _ _ _
      · split
        · exact (eff_reply _ _ _).trans (Eff.of_eq rfl rfl rfl rfl)
        · refine Eff.trans ?_ (eff_deref _ _); cases who <;> eff_tac
    · exact Eff.of_eq rfl rfl rfl rfl
  | mkNull k => exact by simp only [doUser]; refine Eff.trans ?_ (eff_reply _ _ _); eff_tac
  | isReady o =>
    simp only [doUser]
    split
    · split
      · exact (eff_reply _ _ _).trans (Eff.of_eq rfl rfl rfl rfl)
      · split
        · exact Eff.of_eq rfl rfl rfl rfl
        · exact (eff_reply _ _ _).trans (Eff.of_eq rfl rfl rfl rfl)
    · exact Eff.of_eq rfl rfl rfl rfl
  | waitFor o b =>
    simp only [doUser]
    split
    · refine Eff.trans ?_ (eff_spawn _ _ _ _ _ _ _); eff_tac
    · exact Eff.of_eq rfl rfl rfl rfl
  | thenL o cfg =>
    simp only [doUser]
    split
    · refine Eff.trans ?_ (eff_spawn _ _ _ _ _ _ _); cases who <;> eff_tac
    · exact Eff.of_eq rfl rfl rfl rfl
  | thenR o cfg =>
    simp only [doUser]
    split
    · refine Eff.trans ?_ (eff_spawn _ _ _ _ _ _ _)
      refine Eff.trans ?_ (eff_reply _ _ _)
      refine Eff.trans ?_ (eff_moveObj _ _ _)
      eff_tac
    · exact Eff.of_eq rfl rfl rfl rfl
  | connect o q code =>
    simp only [doUser]
    split
    · refine Eff.trans ?_ (eff_spawn _ _ _ _ _ _ _); cases who <;> eff_tac
    · exact Eff.of_eq rfl rfl rfl rfl
  | delCtx q =>
    simp only [doUser]; cases who <;> eff_tac
  | note q => exact (eff_reply _ _ _).trans (Eff.of_eq rfl rfl rfl rfl)

theorem eff_doAct (P : Prog σ V E) (s : State σ V E) (c act) : Eff s (doAct P s c act) := by
  cases act with
  | u a => exact eff_doUser P s (some c) a
  | markCb v => exact (eff_reply _ _ _).trans (Eff.of_eq rfl rfl rfl rfl)
  | markErr v => exact (eff_reply _ _ _).trans (Eff.of_eq rfl rfl rfl rfl)
  | ctxAlive q v =>
    simp only [doAct]
    split
    · exact (eff_reply _ _ _).trans (Eff.of_eq rfl rfl rfl rfl)
    · exact (eff_reply _ _ _).trans (Eff.of_eq rfl rfl rfl rfl)
  | waitDone w r =>
    simp only [doAct]
    split
    · eff_tac
    · exact Eff.of_eq rfl rfl rfl rfl
  | callTmp k code v =>
    simp only [doAct]
    refine Eff.trans ?_ (eff_spawn _ _ _ _ _ _ _); eff_tac
  | awaitTmp o => exact eff_awaitObj _ _ _ _ _
  | dropTmp o =>
    simp only [doAct]
    split
    · exact (eff_reply _ _ _).trans (eff_dropObj _ _)
    · exact Eff.of_eq rfl rfl rfl rfl
  | stuck => exact Eff.of_eq rfl rfl rfl rfl

/-! ### Stack effect of actions -/

/-- The part of the stack below the acting activation. -/
def below (s : State σ V E) : Option Nat → List Frame
  | none => s.stack
  | some _ => s.stack.tail

/-- Frames that are not waitFor activations. -/
def NW (fs : List Frame) : Prop := ∀ f ∈ fs, wOf f = none

/-- After the action the stack is some non-waitFor frames on top of what was below the actor. -/
def StkEff (s s' : State σ V E) (who : Option Nat) : Prop :=
  (∃ fs, s'.stack = fs ++ below s who ∧ NW fs) ∧ s'.wctx = s.wctx ∧ s'.nw = s.nw

theorem Actor.stack {s : State σ V E} {who} (h : Actor s who) :
    ∃ fs, s.stack = fs ++ below s who ∧ NW fs := by
  cases who with
  | none => exact ⟨[], rfl, by simp [NW]⟩
  | some c => obtain ⟨st, hs⟩ := h; exact ⟨[.body c], by simp [below, hs], by simp [NW, wOf]⟩

theorem NW.cons {f fs} (h : NW fs) (hf : wOf f = none) : NW (f :: fs) := by
  intro g hg; simp at hg; rcases hg with rfl | hg
  · exact hf
  · exact h g hg

theorem StkEff.of {s s' : State σ V E} {who} (h : ∃ fs, s.stack = fs ++ below s who ∧ NW fs)
    {gs} (hs : s'.stack = gs ++ s.stack) (hg : NW gs) (hw : s'.wctx = s.wctx) (hn : s'.nw = s.nw) : StkEff s s' who := by
  obtain ⟨fs, h1, h2⟩ := h
  refine ⟨⟨gs ++ fs, ?_, ?_⟩, hw, hn⟩
  · rw [hs, h1, List.append_assoc, ← h1]
  · intro f hf; simp at hf; rcases hf with hf | hf
    · exact hg f hf
    · exact h2 f hf

theorem deref_w (s : State σ V E) (c) : (deref s c).wctx = s.wctx ∧ (deref s c).nw = s.nw := by
  unfold deref; split
  · exact ⟨rfl, rfl⟩
  split
  · exact ⟨rfl, rfl⟩
  · split <;> exact ⟨rfl, rfl⟩
  · exact ⟨rfl, rfl⟩

theorem dropObj_w (s : State σ V E) (c) : (dropObj s c).wctx = s.wctx ∧ (dropObj s c).nw = s.nw := by
  unfold dropObj; split
  · exact ⟨rfl, rfl⟩
  · exact deref_w _ _

theorem spawn_w (P : Prog σ V E) (s : State σ V E) (k code ps v own) :
    (spawn P s k code ps v own).wctx = s.wctx ∧ (spawn P s k code ps v own).nw = s.nw := by
  unfold spawn; cases k <;> exact ⟨rfl, rfl⟩

theorem moveArgs_w (as : List Nat) : ∀ s : State σ V E,
    (moveArgs s as).1.wctx = s.wctx ∧ (moveArgs s as).1.nw = s.nw ∧ (moveArgs s as).1.stack = s.stack := by
  induction as with
  | nil => intro s; exact ⟨rfl, rfl, rfl⟩
  | cons a as ih =>
    intro s; simp only [moveArgs]; split
    · exact ih _
    · exact ⟨rfl, rfl, rfl⟩

theorem shape_app {st st' : List Frame} (h : st' = st ∨ ∃ os, st' = .drops os :: st) :
    ∃ gs, st' = gs ++ st ∧ NW gs := by
  rcases h with h | ⟨os, h⟩
  · exact ⟨[], h, by simp [NW]⟩
  · exact ⟨[.drops os], h, by simp [NW, wOf]⟩

theorem awaitObj_stk {P : Prog σ V E} {s : State σ V E} {a o priv} (ha : Actor s (some a)) :
    StkEff s (awaitObj P s a o priv) (some a) := by
  obtain ⟨st, hst⟩ := ha
  have h0 : ∃ fs, s.stack = fs ++ below s (some a) ∧ NW fs := Actor.stack ⟨st, hst⟩
  unfold awaitObj
  split
  · split
    · split
      · exact ⟨⟨[], by simp [State.pop, State.emit, State.setCoro, below], by simp [NW]⟩, rfl, rfl⟩
      · exact StkEff.of h0 (gs := []) rfl (by simp [NW]) rfl rfl
    · rename_i d _
      split
      · exact StkEff.of h0 (gs := []) rfl (by simp [NW]) rfl rfl
      split
      · split
        · exact StkEff.of h0 (gs := []) rfl (by simp [NW]) rfl rfl
        · exact StkEff.of h0 (gs := []) rfl (by simp [NW]) rfl rfl
      · split
        · exact ⟨⟨[], by simp [State.pop, State.emit, State.setCoro, below], by simp [NW]⟩, rfl, rfl⟩
        · split
          · exact ⟨⟨[.body d], by simp [State.pop, State.push, State.emit, State.setCoro, below], by simp [NW, wOf]⟩, rfl, rfl⟩
          · exact StkEff.of h0 (gs := []) rfl (by simp [NW]) rfl rfl
  · exact StkEff.of h0 (gs := []) rfl (by simp [NW]) rfl rfl

theorem spawn_stk {P : Prog σ V E} {s s0 : State σ V E} {who k code ps v own}
    (h : ∃ fs, s0.stack = fs ++ below s0 who ∧ NW fs) {gs} (hs : s.stack = gs ++ s0.stack) (hg : NW gs)
    (hw : s.wctx = s0.wctx) (hn : s.nw = s0.nw) : StkEff s0 (spawn P s k code ps v own) who := by
  have := spawn_w P s k code ps v own
  rcases spawn_stack P s k code ps v own with h' | h'
  · exact StkEff.of h (h'.trans hs) hg (this.1.trans hw) (this.2.trans hn)
  · exact StkEff.of h (gs := .body s.nc :: gs) (by rw [h', hs]; rfl) (hg.cons rfl) (this.1.trans hw) (this.2.trans hn)

theorem doUser_stk (P : Prog σ V E) {s : State σ V E} {who} (ha : Actor s who) (act : UAct σ V E)
    (hnw : ∀ o b, act ≠ .waitFor o b) : StkEff s (doUser P s who act) who := by
  have h0 := ha.stack
  have hnil : NW [] := by simp [NW]
  have same : ∀ s' : State σ V E, s'.stack = s.stack → s'.wctx = s.wctx → s'.nw = s.nw → StkEff s s' who :=
    fun s' h1 h2 h3 => StkEff.of h0 (gs := []) h1 hnil h2 h3
  cases act with
  | ret v =>
    cases who with
    | none => exact same _ rfl rfl rfl
    | some c =>
      exact ⟨⟨[.final c], by simp [doUser, finish, State.pop, State.push, State.emit, State.setCoro, below], by simp [NW, wOf]⟩, rfl, rfl⟩
  | throw v =>
    cases who with
    | none => exact same _ rfl rfl rfl
    | some c =>
      exact ⟨⟨[.final c], by simp [doUser, finish, State.pop, State.push, State.emit, State.setCoro, below], by simp [NW, wOf]⟩, rfl, rfl⟩
  | call k code v args =>
    obtain ⟨m1, m2, m3⟩ := moveArgs_w args s
    simp only [doUser]
    split
    · exact same _ m3 m1 m2
    · cases who with
      | none => exact spawn_stk h0 (gs := []) m3 hnil m1 m2
      | some p => exact spawn_stk h0 (gs := []) m3 hnil m1 m2
  | await o =>
    cases who with
    | none => exact same _ rfl rfl rfl
    | some c => exact awaitObj_stk ha
  | awaitExt now =>
    cases who with
    | none => cases now <;> exact same _ rfl rfl rfl
    | some c =>
      cases now with
      | some r => exact same _ rfl rfl rfl
      | none => exact ⟨⟨[], by simp [doUser, State.pop, State.emit, State.setCoro, below], hnil⟩, rfl, rfl⟩
  | drop o =>
    simp only [doUser]
    split
    · obtain ⟨gs, g1, g2⟩ := shape_app (dropObj_shape (s.reply who .unit) o).1
      have := dropObj_w (s.reply who .unit) o
      exact StkEff.of h0 (by rw [g1]; simp) g2 (this.1.trans (by simp)) (this.2.trans (by simp))
    · exact same _ rfl rfl rfl
  | moveNew o =>
    simp only [doUser]
    split
    · exact same _ (by simp [moveObj, State.setObj]) (by simp [moveObj, State.setObj]) (by simp [moveObj, State.setObj])
    · exact same _ rfl rfl rfl
  | moveAssign dst src =>
    simp only [doUser]
    split
    · split
      · exact same _ (by simp) (by simp) (by simp)
      · split
        · exact StkEff.of h0 (gs := [.assign dst src]) (by simp [State.push]) (by simp [NW, wOf]) (by simp [State.push]) (by simp [State.push])
        · rename_i c _
          obtain ⟨gs, g1, g2⟩ := shape_app (deref_shape (((s.reply who .unit).setObj dst { (s.reply who .unit).obj dst with handle := none }).push (.assign dst src)) c).1
          have := deref_w (((s.reply who .unit).setObj dst { (s.reply who .unit).obj dst with handle := none }).push (.assign dst src)) c
          refine StkEff.of h0 (gs := gs ++ [.assign dst src]) ?_ ?_ (this.1.trans ?_) (this.2.trans ?_)
          · rw [g1]; simp [State.push, State.setObj]
          · intro f hf; simp at hf; rcases hf with hf | rfl
            · exact g2 f hf
            · rfl
          · simp [State.push, State.setObj]
          · simp [State.push, State.setObj]
    · exact same _ rfl rfl rfl
  | mkNull k => exact same _ (by simp [doUser, State.setObj]) (by simp [doUser, State.setObj]) (by simp [doUser, State.setObj])
  | isReady o =>
    simp only [doUser]
    split
    · split
      · exact same _ (by simp [State.emit]) (by simp [State.emit]) (by simp [State.emit])
      · split
        · exact same _ rfl rfl rfl
        · exact same _ (by simp [State.emit]) (by simp [State.emit]) (by simp [State.emit])
    · exact same _ rfl rfl rfl
  | waitFor o b => exact absurd rfl (hnw o b)
  | thenL o cfg =>
    simp only [doUser]
    split
    · exact spawn_stk h0 (gs := []) (by simp [State.emit]) hnil (by simp [State.emit]) (by simp [State.emit])
    · exact same _ rfl rfl rfl
  | thenR o cfg =>
    simp only [doUser]
    split
    · exact spawn_stk h0 (gs := []) (by simp [State.emit, moveObj, State.setObj]) hnil (by simp [State.emit, moveObj, State.setObj]) (by simp [State.emit, moveObj, State.setObj])
    · exact same _ rfl rfl rfl
  | connect o q code =>
    simp only [doUser]
    split
    · exact spawn_stk h0 (gs := [.drops [_]]) (by simp [State.emit, State.push]; rfl) (by simp [NW, wOf]) (by simp [State.emit, State.push]) (by simp [State.emit, State.push])
    · exact same _ rfl rfl rfl
  | delCtx q => exact same _ (by simp [doUser, State.emit]) (by simp [doUser, State.emit]) (by simp [doUser, State.emit])
  | note q => exact same _ (by simp [doUser, State.emit]) (by simp [doUser, State.emit]) (by simp [doUser, State.emit])

/-! ### Wait-frame invariant through actions -/

theorem waits_NW {fs} (h : NW fs) (st) : waits (fs ++ st) = waits st := by
  induction fs with
  | nil => rfl
  | cons f fs ih =>
    have := h f (by simp)
    simp only [waits, List.cons_append, List.filterMap_cons, this]
    exact ih (fun g hg => h g (by simp [hg]))

theorem SWF_NW {s : State σ V E} {fs} (h : NW fs) (st) : SWF s (fs ++ st) ↔ SWF s st := by
  induction fs with
  | nil => rfl
  | cons f fs ih =>
    have hf := h f (by simp)
    simp only [List.cons_append, SWF]
    rw [ih (fun g hg => h g (by simp [hg]))]
    refine ⟨fun h => h.2, fun h => ⟨?_, h⟩⟩
    intro w hw; simp [hf] at hw

/-- What an action needs to know about wait frames: everything below the actor is in order. -/
structure WPre (s : State σ V E) (st : List Frame) : Prop where
  sorted : (waits st).Pairwise (· > ·)
  fresh : ∀ w, s.nw ≤ w → s.wctx w = {}
  live : ∀ w, (s.wctx w).alive = true → w ∈ waits st
  swf : SWF s st
  callerLt : CallerLt s

theorem WPre.post {s s' : State σ V E} {st fs} (h : WPre s st) (hs : s'.stack = fs ++ st) (hn : NW fs)
    (hw : s'.wctx = s.wctx) (hnw : s'.nw = s.nw) (hnc : s.nc ≤ s'.nc)
    (hc : ∀ c, c ∈ bodies st → (s'.coro c).code = (s.coro c).code) : WInv s' := by
  constructor
  · rw [hs, waits_NW hn]; exact h.sorted
  · rw [hw, hnw]; exact h.fresh
  · rw [hs, waits_NW hn, hw]; exact h.live
  · rw [hs, SWF_NW hn]
    exact h.swf.mono (by omega) (fun w _ _ => by rw [hw]; exact ⟨rfl, rfl⟩) hc
  · intro w c; rw [hw]; intro h1; exact Nat.lt_of_lt_of_le (h.callerLt w c h1) hnc

theorem WInv.pre {s : State σ V E} (h : WInv s) {fs st} (hs : s.stack = fs ++ st) (hn : NW fs) : WPre s st := by
  constructor
  · have := h.sorted; rwa [hs, waits_NW hn] at this
  · exact h.fresh
  · have := h.live; rwa [hs, waits_NW hn] at this
  · have := h.swf; rwa [hs, SWF_NW hn] at this
  · exact h.callerLt

theorem doUser_W (P : Prog σ V E) {s : State σ V E} {who} (ha : Actor s who) (hc : Core s) (act : UAct σ V E)
    (h : WPre s (below s who)) (hbl : ∀ c, c ∈ bodies (below s who) → c < s.nc)
    (hw : ∀ o b, act = .waitFor o b → ∀ c, who = some c → ∀ code, (s.coro c).code = some code → userish code)
    (hu : (doUser P s who act).ub = none) : WInv (doUser P s who act) := by
  by_cases hwf : ∃ o b, act = .waitFor o b
  · obtain ⟨o, b, rfl⟩ := hwf
    simp only [doUser] at hu ⊢
    split
    · rename_i hx
      rw [if_pos hx] at hu
      have hfr := h.fresh
      have hst : waits s.stack = waits (below s who) := by
        obtain ⟨fs, h1, h2⟩ := ha.stack; rw [h1, waits_NW h2]
      have hmem : ∀ w, w ∈ waits s.stack → w < s.nw := by
        intro w hw'
        refine Nat.lt_of_not_le fun hle => ?_
        have hh : SWF s s.stack := by
          obtain ⟨fs, h1, h2⟩ := ha.stack; rw [h1, SWF_NW h2]; exact h.swf
        clear hu
        generalize s.stack = st at hw' hh
        induction st with
        | nil => simp [waits] at hw'
        | cons f rest ih =>
          simp only [waits, List.filterMap_cons] at hw'
          obtain ⟨g1, g2⟩ := hh
          split at hw'
          · exact ih hw' g2
          · rename_i w' hf
            simp at hw'
            rcases hw' with rfl | hw'
            · have := (g1 w hf).1; omega
            · exact ih (by simpa [waits] using hw') g2
      have hlt := ha.lt hc
      simp only [spawn, State.push, State.emit, State.setObj, State.setCoro, State.setW]
      constructor
      · simp only [waits, List.filterMap_cons, wOf]
        refine List.pairwise_cons.2 ⟨?_, ?_⟩
        · intro x hm; have := hmem _ hm; omega
        · have := h.sorted; rw [← hst] at this; exact this
      · intro w hw'
        simp only
        have hw'' : s.nw + 1 ≤ w := hw'
        rw [if_neg (by omega)]; exact hfr w (by omega)
      · intro w
        simp only [waits, List.filterMap_cons, wOf]
        split
        · rename_i h1; simp [h1]
        · intro hl
          have := h.live w hl; rw [← hst] at this
          exact List.mem_cons.2 (Or.inr this)
      · simp only [SWF]
        refine ⟨?_, ?_, ?_⟩
        · intro w hw'; simp [wOf] at hw'
        · intro w hw'
          simp [wOf] at hw'
          subst hw'
          refine ⟨?_, ?_, ?_⟩
          · show s.nw < s.nw + 1; omega
          · simp
          · simp
            rintro c rfl
            obtain ⟨st, hst'⟩ := ha
            refine ⟨⟨st, hst'⟩, ?_⟩
            have := hlt c rfl
            refine fun code hcode => hw o b rfl c rfl code ?_
            have h5 := (eff_doUser P s (some c) (.waitFor o b)).code c this
            simp only [doUser, if_pos hx] at h5
            exact h5.symm.trans hcode
        · have hh : SWF s s.stack := by
            obtain ⟨fs, h1, h2⟩ := ha.stack; rw [h1, SWF_NW h2]; exact h.swf
          refine hh.mono (by simp) ?_ ?_
          · intro w _ hlt'
            simp only
            rw [if_neg (by omega)]; exact ⟨rfl, rfl⟩
          · intro c hcb
            have := hc.bodyLt hcb
            have h5 := (eff_doUser P s who (.waitFor o b)).code c this
            simp only [doUser, if_pos hx] at h5
            exact h5
      · intro w c hcal
        simp only at hcal
        show c < s.nc + 1
        split at hcal
        · simp at hcal; have := hlt c hcal; omega
        · have := h.callerLt w c hcal; omega
    · rename_i hx; rw [if_neg hx] at hu; simp [State.fail] at hu
  · have hnw : ∀ o b, act ≠ .waitFor o b := fun o b hab => hwf ⟨o, b, hab⟩
    obtain ⟨⟨fs, f1, f2⟩, f3, f4⟩ := doUser_stk P ha act hnw
    have he := eff_doUser P s who act
    exact h.post f1 f2 f3 f4 he.nc (fun c hcb => he.code c (hbl c hcb))

theorem doAct_W (P : Prog σ V E) {s : State σ V E} {c} (ha : Actor s (some c)) (hc : Core s) (act : Act σ V E)
    (h : WPre s (below s (some c))) (hbl : ∀ c', c' ∈ bodies (below s (some c)) → c' < s.nc)
    (hw : ∀ o b, act = .u (.waitFor o b) → ∀ code, (s.coro c).code = some code → userish code)
    (hu : (doAct P s c act).ub = none) : WInv (doAct P s c act) := by
  have he := eff_doAct P s c act
  have h0 := ha.stack
  have hnil : NW [] := by simp [NW]
  have same : ∀ s' : State σ V E, (∀ i, i < s.nc → (s'.coro i).code = (s.coro i).code) → s.nc ≤ s'.nc →
      s'.stack = s.stack → s'.wctx = s.wctx → s'.nw = s.nw → WInv s' := by
    intro s' hcd hnc h1 h2 h3
    obtain ⟨fs, f1, f2⟩ := h0
    exact h.post (h1.trans f1) f2 h2 h3 hnc (fun c' hcb => hcd c' (hbl c' hcb))
  have stk : StkEff s (doAct P s c act) (some c) → WInv (doAct P s c act) := by
    rintro ⟨⟨fs, f1, f2⟩, f3, f4⟩
    exact h.post f1 f2 f3 f4 he.nc (fun c' hcb => he.code c' (hbl c' hcb))
  cases act with
  | u a =>
    refine doUser_W P ha hc a h hbl ?_ hu
    rintro o b rfl c' hc'; simp at hc'; subst hc'; exact hw o b rfl
  | markCb v => exact same _ he.code he.nc rfl rfl rfl
  | markErr v => exact same _ he.code he.nc rfl rfl rfl
  | ctxAlive q v =>
    refine same _ he.code he.nc ?_ ?_ ?_ <;> simp only [doAct] <;> split <;> rfl
  | waitDone w r =>
    simp only [doAct] at hu ⊢
    split
    · rename_i hx
      obtain ⟨fs, f1, f2⟩ := h0
      have hs : SWF s s.stack := by rw [f1, SWF_NW f2]; exact h.swf
      have hl := h.live w hx
      have hwlt : w < s.nw := by
        refine Nat.lt_of_not_le fun hle => ?_
        rw [h.fresh w hle] at hx; simp at hx
      constructor
      · show (waits s.stack).Pairwise (· > ·)
        rw [f1, waits_NW f2]; exact h.sorted
      · intro w' hw'
        simp only [State.reply, State.setCoro, State.setW] at hw' ⊢
        rw [if_neg (by omega)]; exact h.fresh w' hw'
      · intro w' hw'
        show w' ∈ waits s.stack
        rw [f1, waits_NW f2]
        simp only [State.reply, State.setCoro, State.setW] at hw'
        split at hw'
        · rename_i h1; rw [h1]; exact hl
        · exact h.live w' hw'
      · show SWF _ s.stack
        refine hs.mono (Nat.le_refl _) ?_ ?_
        · intro w' _ _
          simp only [State.reply, State.setCoro, State.setW]
          split
          · rename_i h1; subst h1; exact ⟨rfl, rfl⟩
          · exact ⟨rfl, rfl⟩
        · intro c' _
          simp only [State.reply, State.setCoro, State.setW]
          split
          · rename_i h1; subst h1; rfl
          · rfl
      · intro w' c' hcal
        simp only [State.reply, State.setCoro, State.setW] at hcal ⊢
        split at hcal
        · exact h.callerLt w c' hcal
        · exact h.callerLt w' c' hcal
    · rename_i hx; rw [if_neg hx] at hu; simp [State.fail] at hu
  | callTmp k code v =>
    apply stk
    simp only [doAct]
    exact spawn_stk h0 (gs := []) rfl hnil rfl rfl
  | awaitTmp o => exact stk (awaitObj_stk ha)
  | dropTmp o =>
    apply stk
    simp only [doAct]
    split
    · obtain ⟨gs, g1, g2⟩ := shape_app (dropObj_shape (s.reply (some c) .unit) o).1
      have := dropObj_w (s.reply (some c) .unit) o
      exact StkEff.of h0 (by rw [g1]; simp) g2 (this.1.trans (by simp)) (this.2.trans (by simp))
    · exact StkEff.of h0 (gs := []) rfl hnil rfl rfl
  | stuck => simp [doAct, State.fail] at hu

end QCoro.Task
