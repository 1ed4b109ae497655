import Verif.Task.ObjStep

/-! Invariant of continuations (`thenImpl`, `thenImplRef`). -/
namespace QCoro.Task
variable {σ V E : Type}

/-- `l` is what a completed continuation did. -/
def Finished (P : Prog σ V E) (cfg : ThenCfg σ) (D : Option Nat → Prop) (l : List (HEv V E)) : Prop :=
  ∃ d r p tl, D (some d) ∧ Got d r p ∧ Tail P cfg r tl ∧ (∃ tl' r', tl = tl' ++ [.fin r']) ∧ l = p ++ tl

/-- A continuation at program point `ph`: its status, the answer it is about to process, what it has done. -/
def AtPh (P : Prog σ V E) (cfg : ThenCfg σ) (D : Option Nat → Prop) (H : Nat → Option Nat) (st : Status) (i : Resp V E)
    (l : List (HEv V E)) : TPhase σ V E → Prop
  | .init => l = [] ∧ (st = .initial ∨ st = .running)
  | .waiting => (l = [.hung] ∧ st = .waitNull ∧ D none) ∨ (∃ d, D (some d) ∧ l = [.reg d] ∧ st = .waitTask d) ∨
      ∃ d r, D (some d) ∧ Got d r l ∧ st = .running ∧ i = .res r
  | .guard v => cfg.guard.isSome ∧ cfg.cbTask = none ∧ st = .running ∧ ∃ d p, D (some d) ∧ Got d (.val v) p ∧
      ((i = .flag true ∧ l = p ++ [.cb v]) ∨ (i = .flag false ∧ l = p ++ [.dead]))
  | .cbStart v => cfg.guard = none ∧ st = .running ∧ ∃ d p, D (some d) ∧ Got d (.val v) p ∧ l = p ++ [.cb v]
  | .cbRun x => cfg.cbTask = none ∧ st = .running ∧ ∃ d p v, D (some d) ∧ Got d (.val v) p ∧ l = p ++ [.cb v] ∧
      ∀ j, RunsTo P cfg.cb (.start [] v) x j
  | .cbCalled => cfg.cbTask.isSome ∧ st = .running ∧ ∃ d p v d2 o2, D (some d) ∧ Got d (.val v) p ∧
      l = p ++ [.cb v, .cbTask d2] ∧ i = .obj o2 ∧ H o2 = some d2
  | .cbAwait o2 => cfg.cbTask.isSome ∧ ∃ d p v d2, D (some d) ∧ Got d (.val v) p ∧ H o2 = some d2 ∧
      ((st = .waitTask d2 ∧ l = p ++ [.cb v, .cbTask d2, .reg d2]) ∨
       ∃ r p2, st = .running ∧ i = .res r ∧ Got d2 r p2 ∧ l = p ++ ([.cb v, .cbTask d2] ++ p2))
  | .cbDrop r => cfg.cbTask.isSome ∧ st = .running ∧ ∃ d p v d2 p2, D (some d) ∧ Got d (.val v) p ∧ Got d2 r p2 ∧
      l = p ++ ([.cb v, .cbTask d2] ++ p2)
  | .errStart f e => cfg.err = some f ∧ P.isStd e = true ∧ st = .running ∧ ∃ d p, D (some d) ∧ Got d (.exc e) p ∧ l = p ++ [.err e]
  | .errRun x => ∃ f e, cfg.err = some f ∧ P.isStd e = true ∧ st = .running ∧ ∃ d p, D (some d) ∧ Got d (.exc e) p ∧
      l = p ++ [.err e] ∧ ∀ j, RunsTo P f (.res (.exc e)) x j
  | .over => False

def At (P : Prog σ V E) (cfg : ThenCfg σ) (D : Option Nat → Prop) (H : Nat → Option Nat) (st : Status) (i : Resp V E)
    (l : List (HEv V E)) (ph : TPhase σ V E) : Prop :=
  (st = .done ∧ Finished P cfg D l) ∨ AtPh P cfg D H st i l ph

theorem At.story {P : Prog σ V E} {cfg D H st i l ph} (h : At P cfg D H st i l ph) : Story P cfg D l := by
  rcases h with ⟨_, d, r, p, tl, h1, h2, h3, _, rfl⟩ | h
  · exact .after d r p tl h1 h2 h3
  · cases ph with
    | init => obtain ⟨rfl, _⟩ := h; exact .idle
    | waiting =>
      rcases h with ⟨rfl, _, h⟩ | ⟨d, h, rfl, _⟩ | ⟨d, r, h, hg, _, _⟩
      · exact .hung h
      · exact .waits d h
      · have := Story.after (P := P) (cfg := cfg) d r l [] h hg (.none r); simpa using this
    | guard v =>
      obtain ⟨hg, _, _, d, p, hd, hp, ⟨_, rfl⟩ | ⟨_, rfl⟩⟩ := h
      · exact .after d _ p _ hd hp (.cb v)
      · exact .after d _ p _ hd hp (.dead v hg)
    | cbStart v => obtain ⟨_, _, d, p, hd, hp, rfl⟩ := h; exact .after d _ p _ hd hp (.cb v)
    | cbRun x => obtain ⟨_, _, d, p, v, hd, hp, rfl, _⟩ := h; exact .after d _ p _ hd hp (.cb v)
    | cbCalled => obtain ⟨hc, _, d, p, v, d2, o2, hd, hp, rfl, _⟩ := h; exact .after d _ p _ hd hp (.task v d2 hc)
    | cbAwait o2 =>
      obtain ⟨hc, d, p, v, d2, hd, hp, _, ⟨_, rfl⟩ | ⟨r, p2, _, _, hg, rfl⟩⟩ := h
      · exact .after d _ p _ hd hp (.taskReg v d2 hc)
      · exact .after d _ p _ hd hp (.taskGot v d2 r p2 hc hg)
    | cbDrop r => obtain ⟨hc, _, d, p, v, d2, p2, hd, hp, hg, rfl⟩ := h; exact .after d _ p _ hd hp (.taskGot v d2 r p2 hc hg)
    | errStart f e => obtain ⟨he, hs, _, d, p, hd, hp, rfl⟩ := h; exact .after d _ p _ hd hp (.err e f he hs)
    | errRun x => obtain ⟨f, e, he, hs, _, d, p, hd, hp, rfl, _⟩ := h; exact .after d _ p _ hd hp (.err e f he hs)
    | over => exact h.elim

/-- The outcome of the coroutine's own `co_await`. -/
theorem self_await (P : Prog σ V E) (s : State σ V E) (t o priv) (hs : (s.coro t).status = .running) (hu' : (awaitObj P s t o priv).ub = none) :
    ((awaitObj P s t o priv).coro t).code = (s.coro t).code ∧ ((awaitObj P s t o priv).coro t).owned = (s.coro t).owned ∧
    ((awaitObj P s t o priv).coro t).kind = (s.coro t).kind ∧
    (((s.obj o).handle = none ∧ ((awaitObj P s t o priv).coro t).status = .waitNull ∧ hist t (awaitObj P s t o priv).log = hist t s.log ++ [.hung]) ∨
     ∃ d, (s.obj o).handle = some d ∧
      ((∃ r, ((awaitObj P s t o priv).coro t).status = .running ∧ ((awaitObj P s t o priv).coro t).inp = .res r ∧
          hist t (awaitObj P s t o priv).log = hist t s.log ++ [.got d r] ∧ (awaitObj P s t o priv).stack = s.stack) ∨
       (((awaitObj P s t o priv).coro t).status = .waitTask d ∧ hist t (awaitObj P s t o priv).log = hist t s.log ++ [.reg d]))) := by
  rcases awaitObj_cases P s t o priv with ⟨u, h⟩ | ⟨_, hh, _, h⟩ | ⟨d, _, hd, _, ⟨r, hdn, _, h⟩ | ⟨_, _, h⟩ | ⟨hi, _, h⟩⟩ <;> rw [h] at hu' ⊢
  · simp [State.fail] at hu'
  · refine ⟨by simp [hungState, State.pop, State.emit, State.setCoro], by simp [hungState, State.pop, State.emit, State.setCoro], by simp [hungState, State.pop, State.emit, State.setCoro], .inl ⟨hh, ?_, ?_⟩⟩
    · simp [hungState, State.pop, State.emit, State.setCoro]
    · rw [hungState_log, hist_snoc]; simp [hev]
  · have hne : t ≠ d := by rintro rfl; rw [hs] at hdn; simp at hdn
    refine ⟨?_, ?_, ?_, .inr ⟨d, hd, .inl ⟨r, ?_, ?_, ?_, rfl⟩⟩⟩
    case refine_6 => rw [readyState_log, hist_snoc]; simp [hev]
    all_goals simp [readyState, State.reply, State.emit, State.setCoro, hne, hs]
  · refine ⟨?_, ?_, ?_, .inr ⟨d, hd, .inr ⟨?_, ?_⟩⟩⟩
    case refine_5 => rw [regState_log, hist_snoc]; simp [hev]
    all_goals
      simp only [regState, State.pop, State.emit, State.setCoro]
      grind
  · have hne : t ≠ d := by rintro rfl; rw [hs] at hi; simp at hi
    refine ⟨?_, ?_, ?_, .inr ⟨d, hd, .inr ⟨?_, ?_⟩⟩⟩
    case refine_5 =>
      rw [lazyState_log]
      have : s.log ++ [Ev.awaitReg t d, .started d] = (s.log ++ [.awaitReg t d]) ++ [.started d] := by simp
      rw [this, hist_snoc, hist_snoc]; simp [hev]
    all_goals
      simp only [lazyState, State.pop, State.push, State.emit, State.setCoro]
      grind

/-- What a completed continuation looks like right after it completed. -/
theorem self_finish (s : State σ V E) (t r) :
    ((finish s t r).coro t).code = (s.coro t).code ∧ ((finish s t r).coro t).owned = (s.coro t).owned ∧
    ((finish s t r).coro t).kind = (s.coro t).kind ∧ ((finish s t r).coro t).status = .done ∧
    hist t (finish s t r).log = hist t s.log ++ [.fin r] := by
  refine ⟨?_, ?_, ?_, ?_, ?_⟩
  case refine_5 => show hist t (s.log ++ [.finished t r]) = _; rw [hist_snoc]; simp [hev]
  all_goals simp [finish, State.push, State.pop, State.emit, State.setCoro]

/-- An action of an inline callback: it ends the callback or does not concern the continuation. -/
theorem inline_act (P : Prog σ V E) (s : State σ V E) {t} (ht : t < s.nc) (a : UAct σ V E) (hn : ∀ o, a ≠ .await o) (hn' : ∀ n, a ≠ .awaitExt n) :
    (∃ v, a = .ret v ∧ doUser P s (some t) a = finish s t (.val v)) ∨ (∃ e, a = .throw e ∧ doUser P s (some t) a = finish s t (.exc e)) ∨
    KeepS t s (doUser P s (some t) a) := by
  cases hl : leaves a with
  | false => exact .inr (.inr (keepS_doUser P s _ a ht hl))
  | true =>
    cases a <;> simp_all [leaves]
    · exact .inl rfl
    · exact .inl rfl

theorem inlineAct_ne (a : UAct σ V E) : (∀ o, inlineAct a ≠ .await o) ∧ ∀ n, inlineAct a ≠ .awaitExt n := by
  cases a <;> simp [inlineAct]
theorem cbEnd_ne (P : Prog σ V E) (cfg) (a : UAct σ V E) : (∀ o, cbEnd P cfg a ≠ .await o) ∧ ∀ n, cbEnd P cfg a ≠ .awaitExt n := by
  cases a <;> simp [cbEnd, inlineAct]
theorem errEnd_ne (P : Prog σ V E) (a : UAct σ V E) : (∀ o, errEnd P a ≠ .await o) ∧ ∀ n, errEnd P a ≠ .awaitExt n := by
  cases a <;> simp [errEnd, inlineAct]

/-- A continuation after one of its own actions. -/
structure After (P : Prog σ V E) (oo : Nat) (cfg : ThenCfg σ) (D : Option Nat → Prop) (t : Nat) (s s' : State σ V E) : Prop where
  at' : ∃ ph, (s'.coro t).code = some (.thenC oo cfg ph) ∧ At P cfg D (fun x => (s'.obj x).handle) (s'.coro t).status (s'.coro t).inp (hist t s'.log) ph ∧ ph ≠ .init
  owned : (s'.coro t).owned = (s.coro t).owned
  kind : (s'.coro t).kind = (s.coro t).kind

theorem actState_coro (P : Prog σ V E) (s : State σ V E) (t code) :
    (actState P s t code).coro t = { s.coro t with code := some (codeNext P (s.coro t).owned code (s.coro t).inp).1 } := by
  simp [actState, State.setCoro]

/-- Inline callback code takes a step. -/
theorem cb_step (P : Prog σ V E) {oo cfg D t d p v x i} {s : State σ V E} (ht : t < s.nc) (hst : (s.coro t).status = .running)
    (hct : cfg.cbTask = none) (hd : D (some d)) (hp : Got d (.val v) p) (hl : hist t s.log = p ++ [.cb v])
    (hr : RunsTo P cfg.cb (.start [] v) x i) (hcode : (s.coro t).code = some (.thenC oo cfg (.cbRun (P.next x i).1))) :
    After P oo cfg D t s (doUser P s (some t) (cbEnd P cfg (P.next x i).2)) := by
  rcases inline_act P s ht _ (cbEnd_ne P cfg (P.next x i).2).1 (cbEnd_ne P cfg (P.next x i).2).2 with ⟨w, hw, h⟩ | ⟨e, hw, h⟩ | h
  · obtain ⟨h1, h2, h3, h4, h5⟩ := self_finish s t (.val w)
    rw [h]
    refine ⟨⟨.cbRun (P.next x i).1, by rw [h1, hcode], .inl ⟨h4, d, .val v, p, [.cb v, .fin (.val w)], hd, hp, ?_, ⟨[.cb v], _, rfl⟩, ?_⟩, by simp⟩, h2, h3⟩
    · refine .cbFin v _ hct ?_
      cases ha : (P.next x i).2 <;> rw [ha] at hw <;> simp [cbEnd, inlineAct] at hw
      rename_i v'
      refine ⟨.val v', ⟨x, i, hr, .inl ⟨v', ha, rfl⟩⟩, ?_⟩
      rw [← hw]; split <;> simp_all [discard]
    · rw [h5, hl]; simp
  · obtain ⟨h1, h2, h3, h4, h5⟩ := self_finish s t (.exc e)
    rw [h]
    refine ⟨⟨.cbRun (P.next x i).1, by rw [h1, hcode], .inl ⟨h4, d, .val v, p, [.cb v, .fin (.exc e)], hd, hp, ?_, ⟨[.cb v], _, rfl⟩, ?_⟩, by simp⟩, h2, h3⟩
    · refine .cbFin v _ hct ?_
      cases ha : (P.next x i).2 <;> rw [ha] at hw <;> simp [cbEnd, inlineAct] at hw
      rename_i e'
      subst hw
      refine ⟨.exc e', ⟨x, i, hr, .inr ⟨e', ha, rfl⟩⟩, ?_⟩
      split <;> simp_all [discard]
    · rw [h5, hl]; simp
  · refine ⟨⟨.cbRun (P.next x i).1, by rw [h.code, hcode], .inr ⟨hct, by rw [h.status, hst], d, p, v, hd, hp, by rw [h.hist, hl], fun j => .step j hr⟩, by simp⟩, h.owned, h.kind⟩

theorem err_step (P : Prog σ V E) {oo cfg D t d p f e x i} {s : State σ V E} (ht : t < s.nc) (hst : (s.coro t).status = .running)
    (he : cfg.err = some f) (hs : P.isStd e = true) (hd : D (some d)) (hp : Got d (.exc e) p) (hl : hist t s.log = p ++ [.err e])
    (hr : RunsTo P f (.res (.exc e)) x i) (hcode : (s.coro t).code = some (.thenC oo cfg (.errRun (P.next x i).1))) :
    After P oo cfg D t s (doUser P s (some t) (errEnd P (P.next x i).2)) := by
  rcases inline_act P s ht _ (errEnd_ne P (P.next x i).2).1 (errEnd_ne P (P.next x i).2).2 with ⟨w, hw, h⟩ | ⟨e2, hw, h⟩ | h
  · obtain ⟨h1, h2, h3, h4, h5⟩ := self_finish s t (.val w)
    rw [h]
    refine ⟨⟨.errRun (P.next x i).1, by rw [h1, hcode], .inl ⟨h4, d, .exc e, p, [.err e, .fin (.val w)], hd, hp, ?_, ⟨[.err e], _, rfl⟩, ?_⟩, by simp⟩, h2, h3⟩
    · refine .errFin e f _ he hs ?_
      cases ha : (P.next x i).2 <;> rw [ha] at hw <;> simp [errEnd, inlineAct] at hw
      rename_i v'
      exact ⟨.val v', ⟨x, i, hr, .inl ⟨v', ha, rfl⟩⟩, by simp [discard, hw]⟩
    · rw [h5, hl]; simp
  · obtain ⟨h1, h2, h3, h4, h5⟩ := self_finish s t (.exc e2)
    rw [h]
    refine ⟨⟨.errRun (P.next x i).1, by rw [h1, hcode], .inl ⟨h4, d, .exc e, p, [.err e, .fin (.exc e2)], hd, hp, ?_, ⟨[.err e], _, rfl⟩, ?_⟩, by simp⟩, h2, h3⟩
    · refine .errFin e f _ he hs ?_
      cases ha : (P.next x i).2 <;> rw [ha] at hw <;> simp [errEnd, inlineAct] at hw
      rename_i e'
      subst hw
      exact ⟨.exc e', ⟨x, i, hr, .inr ⟨e', ha, rfl⟩⟩, by simp [discard]⟩
    · rw [h5, hl]; simp
  · refine ⟨⟨.errRun (P.next x i).1, by rw [h.code, hcode], .inr ⟨f, e, he, hs, by rw [h.status, hst], d, p, hd, hp, by rw [h.hist, hl], fun j => .step j hr⟩, by simp⟩, h.owned, h.kind⟩

theorem At.act (P : Prog σ V E) {oo cfg D ph t} {s : State σ V E} (ht : t < s.nc) (hrun : (s.coro t).status = .running)
    (hcfg : cfg.guard.isSome = true → cfg.cbTask = none)
    (hcode : (s.coro t).code = some (.thenC oo cfg ph))
    (h : At P cfg D (fun x => (s.obj x).handle) (s.coro t).status (s.coro t).inp (hist t s.log) ph)
    (hD : ph = .init → D (s.obj oo).handle)
    (hu' : (doAct P (actState P s t (.thenC oo cfg ph)) t (codeNext P (s.coro t).owned (.thenC oo cfg ph) (s.coro t).inp).2).ub = none) :
    After P oo cfg D t s (doAct P (actState P s t (.thenC oo cfg ph)) t (codeNext P (s.coro t).owned (.thenC oo cfg ph) (s.coro t).inp).2) := by
  rcases h with ⟨h, _⟩ | h
  · rw [hrun] at h; simp at h
  have hco := actState_coro P s t (.thenC oo cfg ph)
  have hlog : (actState P s t (.thenC oo cfg ph)).log = s.log := rfl
  have hobj : (actState P s t (.thenC oo cfg ph)).obj = s.obj := rfl
  have hnc : (actState P s t (.thenC oo cfg ph)).nc = s.nc := rfl
  have hno : (actState P s t (.thenC oo cfg ph)).no = s.no := rfl
  have hqa : (actState P s t (.thenC oo cfg ph)).qalive = s.qalive := rfl
  generalize actState P s t (.thenC oo cfg ph) = s1 at *
  have hrun1 : (s1.coro t).status = .running := by rw [hco]; exact hrun
  have hlift : ∀ s', After P oo cfg D t s1 s' → After P oo cfg D t s s' := by
    intro s' hA
    exact ⟨hA.at', hA.owned.trans (by rw [hco]), hA.kind.trans (by rw [hco])⟩
  have haw : ∀ priv, (awaitObj P s1 t oo priv).ub = none → ph = .init → (s1.coro t).code = some (.thenC oo cfg .waiting) → hist t s1.log = [] → After P oo cfg D t s1 (awaitObj P s1 t oo priv) := by
    intro priv hub hph hc1 hl
    obtain ⟨h1, h2, h3, h4⟩ := self_await P s1 t oo priv hrun1 hub
    refine ⟨⟨.waiting, by rw [h1, hc1], .inr ?_, by simp⟩, h2, h3⟩
    have hD' := hD hph
    rcases h4 with ⟨a, b, c⟩ | ⟨d, a, ⟨r, b, c, e, _⟩ | ⟨b, c⟩⟩
    · rw [hobj] at a; rw [a] at hD'; exact .inl ⟨by rw [c, hl]; rfl, b, hD'⟩
    · rw [hobj] at a; rw [a] at hD'; exact .inr (.inr ⟨d, r, hD', by left; rw [e, hl]; rfl, b, c⟩)
    · rw [hobj] at a; rw [a] at hD'; exact .inr (.inl ⟨d, hD', by rw [c, hl]; rfl, b⟩)
  have hfin : ∀ (d : Nat) (r r' : Res V E) (p tl : List (HEv V E)) ph', (s1.coro t).code = some (.thenC oo cfg ph') → ph' ≠ .init → D (some d) → Got d r p → Tail P cfg r (tl ++ [.fin r']) → hist t s1.log = p ++ tl → After P oo cfg D t s1 (finish s1 t r') := by
    intro d r r' p tl ph' hc1 hne hd hp htl hl
    obtain ⟨h1, h2, h3, h4, h5⟩ := self_finish s1 t r'
    refine ⟨⟨ph', by rw [h1, hc1], .inl ⟨h4, d, r, p, tl ++ [.fin r'], hd, hp, htl, ⟨tl, r', rfl⟩, ?_⟩, hne⟩, h2, h3⟩
    rw [h5, hl]; simp
  cases ph with
  | init =>
    obtain ⟨hl, _⟩ := h
    simp only [codeNext, thenNext] at hu' hco ⊢
    split at hu'
    · rename_i ho; rw [if_pos ho]
      exact hlift _ (haw true hu' rfl (by rw [hco]) (by rw [hlog, hl]))
    · rename_i ho; rw [if_neg ho]
      exact hlift _ (haw false hu' rfl (by rw [hco]) (by rw [hlog, hl]))
  | waiting =>
    rcases h with ⟨_, h, _⟩ | ⟨d, _, _, h⟩ | ⟨d, r, hd, hg, _, hi⟩
    · rw [hrun] at h; simp at h
    · rw [hrun] at h; simp at h
    rw [hi] at hu' hco ⊢
    cases r with
    | val v =>
      simp only [codeNext, thenNext] at hu' hco ⊢
      cases hgd : cfg.guard with
      | none =>
        simp only [hgd] at hu' hco ⊢
        refine ⟨⟨.cbStart v, ?_, .inr ⟨hgd, ?_, d, hist t s.log, hd, hg, ?_⟩, by simp⟩, ?_, ?_⟩
        case refine_3 => show hist t (s1.log ++ [.cb t v]) = _; rw [hist_snoc, hlog]; simp [hev]
        all_goals simp [doAct, State.emit, State.reply, State.setCoro, hco, hrun]
      | some q =>
        simp only [hgd] at hu' hco ⊢
        simp only [doAct]
        cases hq : s1.qalive q with
        | true =>
          simp only [if_true]
          refine ⟨⟨.guard v, ?_, .inr ⟨by simp [hgd], hcfg (by simp [hgd]), ?_, d, hist t s.log, hd, hg, .inl ⟨?_, ?_⟩⟩, by simp⟩, ?_, ?_⟩
          case refine_4 => show hist t (s1.log ++ [.cb t v]) = _; rw [hist_snoc, hlog]; simp [hev]
          all_goals simp [State.emit, State.reply, State.setCoro, hco, hrun]
        | false =>
          simp only [Bool.false_eq_true, if_false]
          refine ⟨⟨.guard v, ?_, .inr ⟨by simp [hgd], hcfg (by simp [hgd]), ?_, d, hist t s.log, hd, hg, .inr ⟨?_, ?_⟩⟩, by simp⟩, ?_, ?_⟩
          case refine_4 => show hist t (s1.log ++ [.guardDead t]) = _; rw [hist_snoc, hlog]; simp [hev]
          all_goals simp [State.emit, State.reply, State.setCoro, hco, hrun]
    | exc e =>
      simp only [codeNext, thenNext] at hu' hco ⊢
      cases hs : P.isStd e with
      | false =>
        simp only [hs, Bool.false_eq_true, if_false] at hu' hco ⊢
        exact hlift _ (hfin d (.exc e) (.exc e) (hist t s.log) [] .over (by rw [hco]) (by simp) hd hg (.through e (.inr hs)) (by rw [hlog]; simp))
      | true =>
        simp only [hs, if_true] at hu' hco ⊢
        cases he : cfg.err with
        | none =>
          simp only [he] at hu' hco ⊢
          exact hlift _ (hfin d (.exc e) (.exc e) (hist t s.log) [] .over (by rw [hco]) (by simp) hd hg (.through e (.inl he)) (by rw [hlog]; simp))
        | some f =>
          simp only [he] at hu' hco ⊢
          refine ⟨⟨.errStart f e, ?_, .inr ⟨he, hs, ?_, d, hist t s.log, hd, hg, ?_⟩, by simp⟩, ?_, ?_⟩
          case refine_3 => show hist t (s1.log ++ [.err t e]) = _; rw [hist_snoc, hlog]; simp [hev]
          all_goals simp [doAct, State.emit, State.reply, State.setCoro, hco, hrun]
  | guard v =>
    obtain ⟨hg, hct, _, d, p, hd, hp, ⟨hi, hl⟩ | ⟨hi, hl⟩⟩ := h
    · rw [hi] at hu' hco ⊢
      simp only [codeNext, thenNext] at hu' hco ⊢
      exact hlift _ (cb_step P (by rw [hnc]; exact ht) hrun1 hct hd hp (by rw [hlog, hl]) .start (by rw [hco]))
    · rw [hi] at hu' hco ⊢
      simp only [codeNext, thenNext] at hu' hco ⊢
      exact hlift _ (hfin d _ (.val P.dflt) p [.dead] .over (by rw [hco]) (by simp) hd hp (.deadFin v hg) (by rw [hlog, hl]))
  | cbStart v =>
    obtain ⟨hg, _, d, p, hd, hp, hl⟩ := h
    cases hct : cfg.cbTask with
    | none =>
      simp only [codeNext, thenNext, hct] at hu' hco ⊢
      exact hlift _ (cb_step P (by rw [hnc]; exact ht) hrun1 hct hd hp (by rw [hlog, hl]) .start (by rw [hco]))
    | some k =>
      simp only [codeNext, thenNext, hct] at hu' hco ⊢
      have hne : t ≠ s1.nc := by rw [hnc]; omega
      have hK := keep_spawn P ((s1.setCoro t { s1.coro t with inp := .obj s1.no }).emit (.cbTask t s1.nc)) k (.user cfg.cb) [] v (.tmp t) (t := t) (by show t < s1.nc; rw [hnc]; exact ht)
      refine ⟨⟨.cbCalled, ?_, .inr ⟨by simp [hct], ?_, d, p, v, s1.nc, s1.no, hd, hp, ?_, ?_, ?_⟩, by simp⟩, ?_, ?_⟩
      · refine hK.code.trans ?_; simp [State.emit, State.setCoro, hco]
      · refine hK.status.trans ?_; simp [State.emit, State.setCoro, hrun1]
      · refine hK.hist.trans ?_
        show hist t (s1.log ++ [.cbTask t s1.nc]) = _
        rw [hist_snoc, hlog, hl]; simp [hev]
      · refine hK.inp.trans ?_; simp [State.emit, State.setCoro]
      · show ((spawn P _ k _ _ _ _).obj s1.no).handle = some s1.nc
        unfold spawn; cases k <;> simp [State.emit, State.push, State.setCoro, State.setObj]
      · refine hK.owned.trans ?_; simp [State.emit, State.setCoro, hco]
      · refine hK.kind.trans ?_; simp [State.emit, State.setCoro, hco]
  | cbRun x =>
    obtain ⟨hct, _, d, p, v, hd, hp, hl, hr⟩ := h
    simp only [codeNext, thenNext] at hu' hco ⊢
    exact hlift _ (cb_step P (by rw [hnc]; exact ht) hrun1 hct hd hp (by rw [hlog, hl]) (hr _) (by rw [hco]))
  | cbCalled =>
    obtain ⟨hct, _, d, p, v, d2, o2, hd, hp, hl, hi, ho⟩ := h
    rw [hi] at hu' hco ⊢
    simp only [codeNext, thenNext] at hu' hco ⊢
    refine hlift _ ?_
    obtain ⟨h1, h2, h3, h4⟩ := self_await P s1 t o2 true hrun1 hu'
    have ho' : (s1.obj o2).handle = some d2 := by rw [hobj]; exact ho
    have hoa : ((awaitObj P s1 t o2 true).obj o2).handle = some d2 := by rw [awaitObj_obj]; exact ho'
    refine ⟨⟨.cbAwait o2, by show ((awaitObj P s1 t o2 true).coro t).code = _; rw [h1, hco], .inr ⟨hct, d, p, v, d2, hd, hp, hoa, ?_⟩, by simp⟩, h2, h3⟩
    rcases h4 with ⟨a, _⟩ | ⟨d3, a, ⟨r, b, c, e, _⟩ | ⟨b, c⟩⟩
    · rw [ho'] at a; simp at a
    · rw [ho'] at a; cases a
      exact .inr ⟨r, [.got d2 r], b, c, .inl rfl, by show hist t (awaitObj P s1 t o2 true).log = _; rw [e, hlog, hl]; simp⟩
    · rw [ho'] at a; cases a
      exact .inl ⟨b, by show hist t (awaitObj P s1 t o2 true).log = _; rw [c, hlog, hl]; simp⟩
  | cbAwait o2 =>
    obtain ⟨hct, d, p, v, d2, hd, hp, ho, ⟨h, _⟩ | ⟨r, p2, _, hi, hg, hl⟩⟩ := h
    · rw [hrun] at h; simp at h
    rw [hi] at hu' hco ⊢
    simp only [codeNext, thenNext] at hu' hco ⊢
    simp only [doAct] at hu' ⊢
    split at hu'
    · rename_i hx; rw [if_pos hx]
      refine hlift _ ?_
      have hK : KeepS t s1 (dropObj (s1.reply (some t) .unit) o2) := (keepS_reply _).trans (keep0_dropObj _ _ _).keepS
      exact ⟨⟨.cbDrop r, by rw [hK.code, hco], .inr ⟨hct, by rw [hK.status, hrun1], d, p, v, d2, p2, hd, hp, hg, by rw [hK.hist, hlog, hl]⟩, by simp⟩, hK.owned, hK.kind⟩
    · simp [State.fail] at hu'
  | cbDrop r =>
    obtain ⟨hct, _, d, p, v, d2, p2, hd, hp, hg, hl⟩ := h
    have hfin' := hfin d (.val v) r p ([.cb v, .cbTask d2] ++ p2) .over
    cases r with
    | val v' =>
      simp only [codeNext, thenNext] at hu' hco ⊢
      exact hlift _ (hfin' (by rw [hco]) (by simp) hd hp (.taskFin v d2 _ p2 hct hg) (by rw [hlog, hl]))
    | exc e' =>
      simp only [codeNext, thenNext] at hu' hco ⊢
      exact hlift _ (hfin' (by rw [hco]) (by simp) hd hp (.taskFin v d2 _ p2 hct hg) (by rw [hlog, hl]))
  | errStart f e =>
    obtain ⟨he, hs, _, d, p, hd, hp, hl⟩ := h
    simp only [codeNext, thenNext] at hu' hco ⊢
    exact hlift _ (err_step P (by rw [hnc]; exact ht) hrun1 he hs hd hp (by rw [hlog, hl]) .start (by rw [hco]))
  | errRun x =>
    obtain ⟨f, e, he, hs, _, d, p, hd, hp, hl, hr⟩ := h
    simp only [codeNext, thenNext] at hu' hco ⊢
    exact hlift _ (err_step P (by rw [hnc]; exact ht) hrun1 he hs hd hp (by rw [hlog, hl]) (hr _) (by rw [hco]))
  | over => exact h.elim

end QCoro.Task
