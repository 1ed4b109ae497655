import Verif.Task.Then

/-! The invariant of continuations, for whole schedules. -/
namespace QCoro.Task
variable {σ V E : Type}

/-- While a coroutine of the library is on top of the native stack, outside callbacks, nobody else can do anything. -/
theorem step_busy (P : Prog σ V E) {s : State σ V E} {t st op code} (hs : s.stack = .body t :: st) (hc : (s.coro t).code = some code)
    (hx : code.isUser = false) (hop : op ≠ .run) : step P s op = s := by
  have hl : s.mayAct = false := by simp [State.mayAct, hs, hc, hx]
  unfold step
  split
  · rfl
  · cases op <;> simp_all

/-- Which coroutine the continuation is about to await, under condition `b`. -/
def Src (b : Prop) (h : Option Nat) (x : Option Nat) : Prop := b → x = h

structure TI (P : Prog σ V E) (t oo : Nat) (cfg : ThenCfg σ) (rv : Bool) (k : Kind) (h : Option Nat) (b : Prop) (s : State σ V E) : Prop where
  lt : t < s.nc
  at' : ∃ ph, (s.coro t).code = some (.thenC oo cfg ph) ∧
    At P cfg (Src b h) (fun x => (s.obj x).handle) (s.coro t).status (s.coro t).inp (hist t s.log) ph ∧
    (ph = .init → (s.coro t).status = .running → (∃ st, s.stack = .body t :: st) ∧ Src b h (s.obj oo).handle)
  owned : (s.coro t).owned = if rv then [oo] else []
  kind : (s.coro t).kind = k
  par : rv = true → oo < s.no ∧ (s.obj oo).owner = .param t ∧ ((s.coro t).freed = false → (s.obj oo).handle = h)
  ini : ∀ ph, (s.coro t).code = some (.thenC oo cfg ph) → (s.coro t).status = .initial → k = .lazy

/-- The library's temporary keeps its reference as long as the continuation needs it. -/
theorem tmp_keep (P : Prog σ V E) {s : State σ V E} (hI : Inv s) (hu : s.ub = none) (op) {t o2} (h1 : o2 < s.no) (h2 : (s.obj o2).owner = .tmp t)
    (hb : ∀ st, s.stack ≠ .body t :: st) : (step P s op).obj o2 = s.obj o2 := by
  refine step_obj P hu op h1 (by rw [h2]; simp) ?_ ?_
  · intro hm
    rcases hI.h.tok o2 hm with h | ⟨_, h | ⟨c, h, _⟩⟩ <;> rw [h2] at h <;> simp at h
  · intro c x cfg' hh hcode r hi
    have h3 := (hI.h.tmp c x cfg' o2 hcode).2.1
    rw [h2] at h3
    cases h3
    cases hst : s.stack with
    | nil => rw [hst] at hh; simp at hh
    | cons f st => rw [hst] at hh; simp at hh; subst hh; exact hb st hst

theorem freed_mono (P : Prog σ V E) {s : State σ V E} (hI : Inv s) (hu : s.ub = none) (hL : LInv P s) (op) {t}
    (h : ((step P s op).coro t).freed = false) : (s.coro t).freed = false := by
  have hL' := step_L P op hI hu hL
  apply Classical.byContradiction
  intro hf
  have hf' : (s.coro t).freed = true := by simpa using hf
  have h1 := (hL.ds t).2 hf'
  obtain ⟨evs, hl⟩ := step_log P s op
  have h2 : Ev.destroyed t ∈ (step P s op).log := by rw [hl]; simp [h1]
  have := (hL'.ds t).1 h2
  rw [h] at this; simp at this

theorem TI_step {P : Prog σ V E} {t oo cfg rv k h b} {s : State σ V E} (hT : TI P t oo cfg rv k h b s) (hcfg : cfg.guard.isSome = true → cfg.cbTask = none)
    (hI : Inv s) (hL : LInv P s) (hu : s.ub = none) (op) (hu' : (step P s op).ub = none)
    (hsame : b → rv = true ∨ k = .eager ∨ (((step P s op).coro t).status = .running → hist t (step P s op).log = [] → ((step P s op).obj oo).handle = h)) : TI P t oo cfg rv k h b (step P s op) := by
  have hse := seff_step P (s := s) op
  have hI' : Inv (step P s op) := by
    rcases step_inv P hI hu op with ⟨_, h⟩ | ⟨u, h, _⟩
    · exact h
    · rw [hu'] at h; simp at h
  obtain ⟨ph, hcode, hat, hini⟩ := hT.at'
  have hco := hI.i2.i1.core
  have hpar : rv = true → oo < (step P s op).no ∧ ((step P s op).obj oo).owner = .param t ∧
      (((step P s op).coro t).freed = false → ((step P s op).obj oo).handle = h) := by
    intro hrv
    obtain ⟨a, b, c⟩ := hT.par hrv
    refine ⟨by have := hse.no; omega, by rw [hse.owner oo a]; exact b, ?_⟩
    intro hf
    have hf0 := freed_mono P hI hu hL op hf
    rw [step_obj P hu op a (by rw [b]; simp)]
    · exact c hf0
    · intro hm
      rcases hI.h.tok oo hm with h | ⟨_, h | ⟨c', h, hc'⟩⟩
      · rw [b] at h; simp at h
      · rw [b] at h; simp at h
      · rw [b] at h; cases h; rw [hf0] at hc'; simp at hc'
    · intro c' x cfg' hh hcode' r hi
      have h3 := (hI.h.tmp c' x cfg' oo hcode').2.1
      rw [b] at h3; simp at h3
  have hini' : ∀ ph, ((step P s op).coro t).code = some (.thenC oo cfg ph) → ((step P s op).coro t).status = .initial →
      ((step P s op).coro t).kind = .lazy := fun _ _ hi => hI'.i2.i1.core.initL t hi
  by_cases hbusy : (∃ st, s.stack = .body t :: st) ∧ (op ≠ .run → Code.isUser (Code.thenC oo cfg ph) = false)
  · obtain ⟨⟨st, hst⟩, hbx⟩ := hbusy
    cases hop : op with
    | run =>
      subst hop
      have hrun : (s.coro t).status = .running := (hco.bodyR t).1 (by simp [hst])
      have hf : (s.coro t).freed = false := hco.notFreed hT.lt (by rw [hrun]; simp)
      have hstep := step_run_body (P := P) hu hst hf hcode
      rw [hstep] at hu' hpar hse hini' ⊢
      have hA := At.act P (D := Src b h) hT.lt hrun hcfg hcode hat ?_ hu'
      · obtain ⟨ph', h1, h2, h3⟩ := hA.at'
        refine ⟨by have h9 := hse.nc; have h8 := hT.lt; omega, ⟨ph', h1, h2, fun hx => absurd hx h3⟩, by rw [hA.owned, hT.owned], by rw [hA.kind, hT.kind], hpar, ?_⟩
        intro p hp hi; rw [← hT.kind, ← hA.kind]; exact hini' p hp hi
      · intro hph; exact (hini hph hrun).2
    | main a => rw [step_busy P hst hcode (hbx (by rw [hop]; simp)) (by simp)]; exact hT
    | fire c r => rw [step_busy P hst hcode (hbx (by rw [hop]; simp)) (by simp)]; exact hT
    | exitLoop w => rw [step_busy P hst hcode (hbx (by rw [hop]; simp)) (by simp)]; exact hT
  · have hb : Code.isUser (Code.thenC oo cfg ph) = false → ∀ st, s.stack ≠ .body t :: st := fun hx st hst => hbusy ⟨⟨st, hst⟩, fun _ => hx⟩
    have hb' : op = .run → ∀ st, s.stack ≠ .body t :: st := fun hx st hst => hbusy ⟨⟨st, hst⟩, fun h => absurd hx h⟩
    have hnotinit : ph = .init → (s.coro t).status ≠ .running := fun hp hr => by
      subst hp
      obtain ⟨⟨st, h1⟩, _⟩ := hini rfl hr
      exact hb rfl st h1
    have hlt' : t < (step P s op).nc := by have h9 := hse.nc; have h8 := hT.lt; omega
    have hH1 : ∀ o2, ph = .cbAwait o2 → (step P s op).obj o2 = s.obj o2 := by
      intro o2 hp; subst hp
      obtain ⟨a, b, _⟩ := hI.h.tmp t oo cfg o2 hcode
      exact tmp_keep P hI hu op a b (hb rfl)
    have hH2 : ∀ o2, ph = .cbCalled → (s.coro t).inp = .obj o2 → (step P s op).obj o2 = s.obj o2 := by
      intro o2 hp hi; subst hp
      obtain ⟨a, b, _⟩ := hI.h.called t (by simp) oo cfg o2 hcode hi
      exact tmp_keep P hI hu op a b (hb rfl)
    have mk : ∀ (_ : ((step P s op).coro t).code = (s.coro t).code) (_ : ((step P s op).coro t).owned = (s.coro t).owned)
        (_ : ((step P s op).coro t).kind = (s.coro t).kind)
        (_ : At P cfg (Src b h) (fun x => ((step P s op).obj x).handle) ((step P s op).coro t).status ((step P s op).coro t).inp (hist t (step P s op).log) ph)
        (_ : ph = .init → ((step P s op).coro t).status = .running → (∃ st, (step P s op).stack = .body t :: st) ∧ Src b h ((step P s op).obj oo).handle),
        TI P t oo cfg rv k h b (step P s op) := by
      intro h1 h2 h3 h4 h5
      refine ⟨hlt', ⟨ph, by rw [h1, hcode], h4, h5⟩, by rw [h2, hT.owned], by rw [h3, hT.kind], hpar, ?_⟩
      intro p hp hi; rw [← hT.kind, ← h3]; exact hini' p hp hi
    cases step_loc P hI hu op hu' hT.lt with
    | act st code hst _ _ hop => exact absurd hst (hb' hop st)
    | ext r st =>
      exfalso
      rcases hat with ⟨hd, _⟩ | hat
      · rw [st] at hd; simp at hd
      · rw [st] at hat
        cases ph <;> simp [AtPh] at hat
    | ret r us st code owned kind hi =>
      have hus := us _ hcode
      refine mk code owned kind ?_ ?_
      · rw [st, hi]
        rcases hat with ⟨hd, hf⟩ | hat
        · exact .inl ⟨hd, hf⟩
        · right
          cases ph <;> simp [userish] at hus
          · exact hat
          · exact hat
      · intro hp; subst hp; simp [userish] at hus
    | woken d r st st' inp code owned kind hi =>
      refine mk code owned kind ?_ ?_
      · rw [st', inp, hi]
        rcases hat with ⟨hd, _⟩ | hat
        · rw [st] at hd; simp at hd
        · rw [st] at hat
          right
          cases ph with
          | waiting =>
            rcases hat with ⟨_, h, _⟩ | ⟨d', hD, hl, h⟩ | ⟨_, _, _, _, h, _⟩
            · simp at h
            · cases h; exact .inr (.inr ⟨d, r, hD, .inr (by rw [hl]; rfl), rfl, rfl⟩)
            · simp at h
          | cbAwait o2 =>
            obtain ⟨hc, d1, p, v, d2, hd, hp, ho, ⟨h, hl⟩ | ⟨_, _, h, _⟩⟩ := hat
            · cases h
              refine ⟨hc, d1, p, v, d, hd, hp, by show ((step P s op).obj o2).handle = _; rw [hH1 o2 rfl]; exact ho, .inr ⟨r, [.reg d, .got d r], rfl, rfl, .inr rfl, by rw [hl]; simp⟩⟩
            · simp at h
          | _ => simp [AtPh] at hat
      · intro hp _; subst hp; rcases hat with ⟨hd, _⟩ | hat
        · rw [st] at hd; simp at hd
        · rw [st] at hat; simp [AtPh] at hat
    | same hK =>
      refine mk hK.code hK.owned hK.kind ?_ ?_
      · rw [hK.hist]
        rcases hK.status with hst | ⟨hi, hr, hs⟩
        · rw [hst, hK.inp]
          rcases hat with h | hat
          · exact .inl h
          · right
            cases ph with
            | cbCalled =>
              obtain ⟨hc, h1, d, p, v, d2, o2, hd, hp, hl, hi, ho⟩ := hat
              exact ⟨hc, h1, d, p, v, d2, o2, hd, hp, hl, hi, by show ((step P s op).obj o2).handle = _; rw [hH2 o2 rfl hi]; exact ho⟩
            | cbAwait o2 =>
              obtain ⟨hc, d, p, v, d2, hd, hp, ho, hx⟩ := hat
              exact ⟨hc, d, p, v, d2, hd, hp, by show ((step P s op).obj o2).handle = _; rw [hH1 o2 rfl]; exact ho, hx⟩
            | _ => exact hat
        · rw [hr]
          rcases hat with ⟨hd, _⟩ | hat
          · rw [hi] at hd; simp at hd
          · rw [hi] at hat
            cases ph with
            | init => exact .inr ⟨hat.1, .inr rfl⟩
            | _ => simp [AtPh] at hat
      · intro hp hr
        rcases hK.status with hst | ⟨hi, _, hs⟩
        · rw [hst] at hr; exact absurd hr (hnotinit hp)
        · refine ⟨hs, ?_⟩
          intro hb'
          rcases hsame hb' with hrv | hk | hsm
          · have hf : ((step P s op).coro t).freed = false := hI'.i2.i1.core.notFreed hlt' (by rw [hr]; simp)
            exact (hpar hrv).2.2 hf
          · have := hco.initL t hi; rw [hT.kind, hk] at this; simp at this
          · refine hsm hr ?_
            rw [hK.hist]
            rcases hat with ⟨hd, _⟩ | hat
            · rw [hi] at hd; simp at hd
            · subst hp; exact hat.1

end QCoro.Task
