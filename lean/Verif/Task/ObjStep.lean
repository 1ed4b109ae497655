import Verif.Task.Local

/-! What one step means for the Task objects the library itself holds. -/
namespace QCoro.Task
variable {σ V E : Type}

theorem awaitObj_obj (P : Prog σ V E) (s : State σ V E) (a o priv) : (awaitObj P s a o priv).obj = s.obj := by
  rcases awaitObj_cases P s a o priv with ⟨u, h⟩ | ⟨_, _, _, h⟩ | ⟨d, _, hd, _, ⟨r, _, _, h⟩ | ⟨_, _, h⟩ | ⟨hi, _, h⟩⟩ <;> rw [h] <;> rfl

theorem deref_obj (s : State σ V E) (c) : (deref s c).obj = s.obj := by
  unfold deref
  split
  · rfl
  split
  · rfl
  · split <;> rfl
  · rfl

theorem dropObj_obj (s : State σ V E) {o o'} (h : o' ≠ o) : (dropObj s o).obj o' = s.obj o' := by
  unfold dropObj
  split
  · simp [State.setObj, h]
  · rw [deref_obj]; simp [State.setObj, h]

theorem doUser_obj (P : Prog σ V E) (s : State σ V E) (who act) {o} (ho : o < s.no) (hw : (s.obj o).owner ≠ .user) :
    (doUser P s who act).obj o = s.obj o := by
  by_cases hna : ∀ o, act ≠ .await o
  · exact (eff2_doUser P s who act hna).par o ho hw
  · simp only [Classical.not_forall, Classical.not_not] at hna
    obtain ⟨o', rfl⟩ := hna
    cases who with
    | none => rfl
    | some c => exact congrFun (awaitObj_obj P s c o' false) o

theorem doAct_obj (P : Prog σ V E) (s : State σ V E) (a act) {o} (ho : o < s.no) (hw : (s.obj o).owner ≠ .user) (hd : act ≠ .dropTmp o) :
    (doAct P s a act).obj o = s.obj o := by
  cases act with
  | u act => exact doUser_obj P s _ act ho hw
  | awaitTmp o' => exact congrFun (awaitObj_obj P s a o' true) o
  | markCb v => rfl
  | markErr v => rfl
  | ctxAlive q v => simp only [doAct]; split <;> rfl
  | waitDone w r => simp only [doAct]; split <;> rfl
  | callTmp k code v =>
    have h := (eff2_spawn P ((s.setCoro a { s.coro a with inp := .obj s.no }).emit (.cbTask a s.nc)) k (.user code) [] v (.tmp a) none).par o ho hw
    exact h
  | dropTmp o' =>
    simp only [doAct]; split
    · rw [dropObj_obj _ (by rintro rfl; exact hd rfl)]; rfl
    · rfl
  | stuck => rfl

/-- A live library object keeps its reference unless it is being destroyed. -/
theorem step_obj (P : Prog σ V E) {s : State σ V E} (hu : s.ub = none) (op) {o} (ho : o < s.no)
    (hw : (s.obj o).owner ≠ .user) (ht : o ∉ toks s.stack)
    (hd : ∀ c x cfg, s.stack.head? = some (.body c) → (s.coro c).code = some (.thenC x cfg (.cbAwait o)) → ∀ r, (s.coro c).inp ≠ .res r) :
    (step P s op).obj o = s.obj o := by
  cases op with
  | main a => simp only [step, hu]; split <;> (try split) <;> first | rfl | exact doUser_obj P s none a ho hw
  | fire c r => simp only [step, hu]; split <;> (try split) <;> rfl
  | exitLoop w => simp only [step, hu]; split <;> (try split) <;> rfl
  | run =>
    have hr : step P s .run = run P s := by simp [step, hu]
    rw [hr]
    cases hst : s.stack with
    | nil => simp only [run, hst]
    | cons f st =>
      rw [hst] at ht hd
      have wr : ∀ w, (waitReturn P s w).obj = s.obj := by
        intro w; unfold waitReturn; dsimp only; split
        · show ((((s.setW w _).pop).reply _ _).emit _).obj = _
          simp only [State.emit, reply_obj]; rfl
        · split
          · show ((((s.setW w _).pop).reply _ _).emit _).obj = _
            simp only [State.emit, reply_obj]; rfl
          · rfl
      cases f with
      | body c =>
        simp only [run, hst]
        split
        · rfl
        · split
          · rfl
          · rename_i code hcode
            refine (doAct_obj P (actState P s c code) c _ (o := o) ho hw ?_)
            intro hact
            have h1 := (codeNext_H P (s.coro c).owned code (s.coro c).inp).2.2.2 o hact
            obtain ⟨⟨x, cfg, rfl⟩, _⟩ := h1
            have h2 := hd c x cfg rfl hcode
            revert hact
            cases hi : (s.coro c).inp with
            | res r => exact absurd hi (h2 r)
            | _ => simp [codeNext, thenNext]
      | final c =>
        simp only [run, hst]
        split
        · rfl
        · split
          · split
            · rfl
            · split
              · split <;> rfl
              · rfl
          · rw [deref_obj]; rfl
      | drops os =>
        cases os with
        | nil => simp only [run, hst]; rfl
        | cons o' os =>
          have hne : o ≠ o' := by rintro rfl; exact ht (by simp)
          simp only [run, hst]; split
          · rw [dropObj_obj _ hne]; rfl
          · rfl
      | assign dst src =>
        simp only [run, hst]; split
        · rename_i hx
          simp only [Bool.and_eq_true] at hx
          have h1 := usable_user hx.1
          have h2 := usable_user hx.2
          have hd1 : o ≠ dst := by rintro rfl; exact hw h1
          have hd2 : o ≠ src := by rintro rfl; exact hw h2
          simp [State.setObj, hd1, hd2, State.pop]
        · rfl
      | waitA w tmp =>
        have hne : o ≠ tmp := by rintro rfl; exact ht (by simp)
        simp only [run, hst]; split
        · rw [dropObj_obj _ hne]; rfl
        · rfl
      | waitB w => simp only [run, hst]; split; · rw [wr w]
                   · rfl
      | loop w => simp only [run, hst]; split; · rw [wr w]
                  · rfl

/-- Frame conditions of a whole step. -/
structure SEff (s s' : State σ V E) : Prop where
  nc : s.nc ≤ s'.nc
  no : s.no ≤ s'.no
  owner : ∀ o, o < s.no → (s'.obj o).owner = (s.obj o).owner
  dead : ∀ o, o < s.no → (s.obj o).alive = false → (s'.obj o).alive = false

theorem Eff.seff {s s' : State σ V E} (h : Eff s s') : SEff s s' := ⟨h.nc, h.no, h.owner, h.dead⟩
theorem SEff.of_eq {s s' : State σ V E} (h1 : s'.nc = s.nc) (h2 : s'.no = s.no) (h3 : s'.obj = s.obj) : SEff s s' := by
  constructor <;> simp [h1, h2, h3]
theorem SEff.pre {a b c : State σ V E} (h1 : b.nc = a.nc) (h2 : b.no = a.no) (h3 : b.obj = a.obj) (h : SEff b c) : SEff a c := by
  obtain ⟨a1, a2, a3, a4⟩ := h
  rw [h1] at a1; rw [h2] at a2 a3 a4; rw [h3] at a3 a4
  exact ⟨a1, a2, a3, a4⟩

theorem seff_step (P : Prog σ V E) {s : State σ V E} (op) : SEff s (step P s op) := by
  have rf : SEff s s := SEff.of_eq rfl rfl rfl
  by_cases hu : s.ub.isSome = true
  · simp only [step, hu, if_true]; exact rf
  cases op with
  | main a =>
    have hr : step P s (.main a) = if s.mayAct then doUser P s none a else s := by simp [step, hu]
    rw [hr]; split
    · exact (eff_doUser P s none a).seff
    · exact rf
  | fire c r => simp only [step, hu]; simp only [Bool.false_eq_true, if_false]; split <;> exact SEff.of_eq rfl rfl rfl
  | exitLoop w => simp only [step, hu]; simp only [Bool.false_eq_true, if_false]; split <;> exact SEff.of_eq rfl rfl rfl
  | run =>
    have hr : step P s .run = run P s := by simp [step, hu]
    rw [hr]
    have wr : ∀ w, SEff s (waitReturn P s w) := by
      intro w; unfold waitReturn; dsimp only; split
      · refine SEff.pre rfl rfl rfl (b := (s.setW w { s.wctx w with alive := false }).pop) ?_; obtain ⟨a1, a2, a3, a4⟩ := (eff_reply (s.setW w { s.wctx w with alive := false }).pop (s.wctx w).caller _).seff; exact ⟨a1, a2, a3, a4⟩
      · split
        · refine SEff.pre rfl rfl rfl (b := (s.setW w { s.wctx w with alive := false }).pop) ?_; obtain ⟨a1, a2, a3, a4⟩ := (eff_reply (s.setW w { s.wctx w with alive := false }).pop (s.wctx w).caller _).seff; exact ⟨a1, a2, a3, a4⟩
        · exact SEff.of_eq rfl rfl rfl
    cases hst : s.stack with
    | nil => simp only [run, hst]; exact rf
    | cons f st =>
      cases f with
      | body c =>
        simp only [run, hst]
        split
        · exact SEff.of_eq rfl rfl rfl
        · split
          · exact SEff.of_eq rfl rfl rfl
          · rename_i code hcode
            exact SEff.pre (b := actState P s c code) rfl rfl rfl (eff_doAct P _ c _).seff
      | final c =>
        simp only [run, hst]
        split
        · exact SEff.of_eq rfl rfl rfl
        · split
          · split
            · exact SEff.of_eq rfl rfl rfl
            · split
              · split <;> exact SEff.of_eq rfl rfl rfl
              · exact SEff.of_eq rfl rfl rfl
          · exact SEff.pre (b := (s.setCoro c { s.coro c with selfRef := false }).pop) rfl rfl rfl (eff_deref _ _).seff
      | drops os =>
        cases os with
        | nil => simp only [run, hst]; exact SEff.of_eq rfl rfl rfl
        | cons o' os =>
          simp only [run, hst]; split
          · exact SEff.pre (b := s.pop.push (.drops os)) rfl rfl rfl (eff_dropObj _ _).seff
          · exact SEff.of_eq rfl rfl rfl
      | assign dst src =>
        simp only [run, hst]; split
        · constructor <;> simp only [State.setObj, State.pop] <;> grind
        · exact SEff.of_eq rfl rfl rfl
      | waitA w tmp =>
        simp only [run, hst]; split
        · exact SEff.pre (b := s.pop.push (.waitB w)) rfl rfl rfl (eff_dropObj _ _).seff
        · exact SEff.of_eq rfl rfl rfl
      | waitB w =>
        simp only [run, hst]; split
        · exact wr w
        · exact SEff.of_eq rfl rfl rfl
      | loop w =>
        simp only [run, hst]; split
        · exact wr w
        · exact rf

/-! ### Own actions that neither suspend nor complete the coroutine -/

/-- `t` may have got an answer, nothing else. -/
structure KeepS (t : Nat) (s s' : State σ V E) : Prop where
  code : (s'.coro t).code = (s.coro t).code
  owned : (s'.coro t).owned = (s.coro t).owned
  kind : (s'.coro t).kind = (s.coro t).kind
  status : (s'.coro t).status = (s.coro t).status
  hist : Task.hist t s'.log = Task.hist t s.log

theorem Keep0.keepS {t} {s s' : State σ V E} (h : Keep0 t s s') : KeepS t s s' := ⟨h.code, h.owned, h.kind, h.status, h.hist⟩
theorem KeepS.trans {t} {a b c : State σ V E} (h : KeepS t a b) (k : KeepS t b c) : KeepS t a c :=
  ⟨k.code.trans h.code, k.owned.trans h.owned, k.kind.trans h.kind, k.status.trans h.status, k.hist.trans h.hist⟩
theorem KeepS.emit {t} {s s' : State σ V E} (h : KeepS t s s') {e} (he : hev t e = none) : KeepS t s (s'.emit e) := by
  refine ⟨h.code, h.owned, h.kind, h.status, ?_⟩
  rw [← h.hist]; simp only [State.emit]; rw [hist_snoc, he]; simp
theorem KeepS.of_eq {t} {s s' : State σ V E} (h : s'.coro t = s.coro t) (hl : s'.log = s.log) : KeepS t s s' := (Keep0.of_eq h hl).keepS
theorem keepS_reply {s : State σ V E} {who t} (i) : KeepS t s (s.reply who i) := by
  cases who with
  | none => exact KeepS.of_eq rfl rfl
  | some c =>
    constructor <;> simp only [State.reply, State.setCoro] <;> grind

theorem moveArgs_log (as : List Nat) : ∀ s : State σ V E, (moveArgs s as).1.log = s.log ∧ (moveArgs s as).1.nc = s.nc := by
  induction as with
  | nil => intro s; exact ⟨rfl, rfl⟩
  | cons a as ih => intro s; simp only [moveArgs]; split; · exact ih _
                    · exact ⟨rfl, rfl⟩

/-- Is this action the end or a suspension of the code that performs it? -/
def leaves : UAct σ V E → Bool
  | .ret _ | .throw _ | .await _ | .awaitExt _ => true
  | _ => false

theorem keepS_doUser (P : Prog σ V E) (s : State σ V E) (who act) {t} (ht : t < s.nc) (hl : leaves act = false) :
    KeepS t s (doUser P s who act) := by
  have hf : ∀ u, KeepS t s (s.fail u) := fun u => KeepS.of_eq rfl rfl
  have hr : ∀ i, KeepS t s (s.reply who i) := fun i => keepS_reply i
  cases act with
  | ret v => simp [leaves] at hl
  | throw e => simp [leaves] at hl
  | await o => simp [leaves] at hl
  | awaitExt now => simp [leaves] at hl
  | call k code v args =>
    simp only [doUser]
    have h1 : KeepS t s (moveArgs s args).1 := KeepS.of_eq (by rw [moveArgs_coro]) (moveArgs_log args s).1
    split
    · exact h1
    · cases who with
      | none => exact h1.trans (keep_spawn P _ k _ _ v _ (by rw [(moveArgs_log args s).2]; exact ht)).keepS
      | some p =>
        refine (h1.trans (keepS_reply (who := some p) (.obj (moveArgs s args).1.no))).trans (keep_spawn P _ k _ _ v _ ?_).keepS
        show t < (moveArgs s args).1.nc
        rw [(moveArgs_log args s).2]; exact ht
  | drop o => simp only [doUser]; split; · exact (hr _).trans (keep0_dropObj _ _ _).keepS
              · exact hf _
  | moveNew src => simp only [doUser]; split; · exact (hr (.obj s.no)).trans (KeepS.of_eq rfl rfl)
                   · exact hf _
  | moveAssign dst src =>
    simp only [doUser]; split
    · split
      · exact hr _
      · split
        · exact (hr .unit).trans (KeepS.of_eq rfl rfl)
        · rename_i c _
          refine KeepS.trans (b := ((s.reply who .unit).setObj dst { (s.reply who .unit).obj dst with handle := none }).push (.assign dst src)) ?_ (keep0_deref _ _ _).keepS
          exact (hr .unit).trans (KeepS.of_eq rfl rfl)
    · exact hf _
  | mkNull k => exact KeepS.trans (KeepS.of_eq (s' := { s.setObj s.no { alive := true, kind := k } with no := s.no + 1 }) rfl rfl) (keepS_reply _)
  | isReady o =>
    simp only [doUser]; split
    · split
      · exact (hr _).emit rfl
      · split
        · exact hf _
        · exact (hr _).emit rfl
    · exact hf _
  | waitFor o b =>
    simp only [doUser]; split
    · refine KeepS.trans ?_ (keep_spawn P _ _ _ _ _ _ (by exact ht)).keepS
      exact KeepS.trans (KeepS.emit (KeepS.of_eq (s := s) (s' := { s.setW s.nw { alive := true, isVoid := b, caller := who } with nw := s.nw + 1 }) rfl rfl) (e := .waitCall s.nw s.nc (s.aim o)) rfl) (KeepS.of_eq rfl rfl)
    · exact hf _
  | thenL o cfg =>
    simp only [doUser]; split
    · refine KeepS.trans ?_ (keep_spawn P _ _ _ _ _ _ ?_).keepS
      · exact KeepS.trans (KeepS.emit (KeepS.of_eq rfl rfl) (e := .thenMade s.nc (s.obj o).handle (cfg.plain.info false)) rfl) (keepS_reply _)
      · rw [reply_nc]; exact ht
    · exact hf _
  | thenR o cfg =>
    simp only [doUser]; split
    · refine KeepS.trans ?_ (keep_spawn P _ _ _ _ _ _ ?_).keepS
      · refine KeepS.trans (KeepS.trans (KeepS.emit (KeepS.of_eq (s := s) rfl rfl) (e := .thenMade s.nc (s.obj o).handle (cfg.plain.info true)) rfl) ?_) (keepS_reply _)
        exact KeepS.of_eq rfl rfl
      · rw [reply_nc]; exact ht
    · exact hf _
  | connect o q code =>
    simp only [doUser]; split
    · refine KeepS.trans ?_ (keep_spawn P _ _ _ _ _ _ ?_).keepS
      · refine KeepS.trans (KeepS.trans (KeepS.emit (KeepS.of_eq (s := s) rfl rfl) (e := .thenMade s.nc (s.obj o).handle ⟨false, some q, false, false⟩) rfl) (keepS_reply (who := who) .unit)) ?_
        exact KeepS.of_eq rfl rfl
      · show t < (State.reply _ _ _).nc
        rw [reply_nc]; exact ht
    · exact hf _
  | delCtx q => exact KeepS.emit (e := .ctxDel q) (KeepS.trans (KeepS.of_eq (s := s) (s' := { s with qalive := fun i => if i = q then false else s.qalive i }) rfl rfl) (keepS_reply _)) rfl
  | note n => exact (hr _).emit rfl

end QCoro.Task
