import Verif.AsyncGen.Spec
/- Invariant and refinement proof for the asynchronous generator machine. -/
namespace QCoro.AGen
variable {σ V E : Type}

def Status.active : Status → Bool
  | .running | .waitExt | .waitGen _ _ => true
  | _ => false

def absPh (f : Frame σ V E) : Ph V E :=
  if f.freed then .gone else
  match f.status with
  | .unborn => .unborn
  | .initial => .fresh
  | .done => if f.isGen then .over else .plainOver
  | .atYield => match f.value with | some v => .at v | none => .unborn
  | .running | .waitExt | .waitGen _ _ =>
    if f.isGen then match f.consumer with | some k => .active k | none => .unborn else .plain

def absCw (f : Frame σ V E) : Option Nat := match f.status with | .waitGen g _ => some g | _ => none
def absSusp (f : Frame σ V E) : Bool := match f.status with | .waitExt => true | _ => false

structure WF (f : Frame σ V E) : Prop where
  st : f.status ≠ .unborn → f.st.isSome = true
  unb : f.status = .unborn → f.freed = false
  ini : f.status = .initial → f.isGen = true ∧ f.value = none ∧ f.exc = none
  yld : f.status = .atYield → f.isGen = true ∧ f.value.isSome = true ∧ f.exc = none
  act : f.status.active = true → f.exc = none ∧ (f.isGen = true → f.consumer.isSome = true)
  run : f.status = .running → f.freed = false
  gen : f.freed = true → f.isGen = true

structure Inv (s : State σ V E) : Prop where
  wf : ∀ g, WF (s.fr g)
  born : ∀ g, g < s.nf ↔ (s.fr g).status ≠ .unborn
  cur : ∀ c, (s.fr c).status = .running ↔ c ∈ s.stack
  nd : s.stack.Nodup
  wait : ∀ k g c, (s.fr k).status = .waitGen g c →
    (s.fr g).freed = true ∨ ((s.fr g).status.active = true ∧ (s.fr g).isGen = true ∧ (s.fr g).consumer = some k)
  cons : ∀ g k, (s.fr g).freed = false → (s.fr g).isGen = true → (s.fr g).status.active = true →
    (s.fr g).consumer = some k → ∃ c, (s.fr k).status = .waitGen g c
  inc : ∀ k g i, (s.fr k).status = .waitGen g (.inc i) → s.it i = some (some g)
  own : ∀ o g, s.obj o = .live (some g) → (s.fr g).freed = false ∧ (s.fr g).status ≠ .unborn ∧ (s.fr g).isGen = true
  uniq : ∀ o o' g, s.obj o = .live (some g) → s.obj o' = .live (some g) → o = o'
  objB : ∀ o, s.no ≤ o → s.obj o = .none
  itB : ∀ i, s.ni ≤ i → s.it i = none
  itS : ∀ i, i < s.ni → s.it i ≠ none
  itG : ∀ i g, s.it i = some (some g) → (s.fr g).status ≠ .unborn ∧ (s.fr g).isGen = true
  ph : ∀ c, (Spec.after s.log).ph c = absPh (s.fr c)
  cw : ∀ c, (Spec.after s.log).cw c = absCw (s.fr c)
  susp : ∀ c, (Spec.after s.log).susp c = absSusp (s.fr c)
  it : (Spec.after s.log).it = s.it
  obj : (Spec.after s.log).obj = s.obj
  lost : ∀ g, (s.fr g).status ≠ .unborn → (s.fr g).freed = false → (s.fr g).isGen = true →
    (Spec.after s.log).lost g = true ∨ ∃ o, s.obj o = .live (some g)
  legal : Legal Spec.next Spec.ok {} s.log
  ub : s.ub ≠ some .doubleDestroy ∧ s.ub ≠ some .ownerDangling ∧ s.ub ≠ some .stuck

theorem inv_init : Inv ({} : State σ V E) := by
  refine ⟨fun g => ⟨by simp, by simp, by simp, by simp, by simp [Status.active], by simp, by simp⟩, by simp, by simp, by simp, by simp,
    by simp [Status.active], by simp, by simp, by simp,
    by simp, by simp, by simp, by simp, by simp [Spec.after, absPh], by simp [Spec.after, absCw], by simp [Spec.after, absSusp],
    by simp [Spec.after], by simp [Spec.after], by simp, Legal.nil, by simp⟩

theorem Inv.fail {s : State σ V E} (h : Inv s) {u : Ub} (hu : u ≠ .doubleDestroy ∧ u ≠ .ownerDangling ∧ u ≠ .stuck) :
    Inv (s.fail u) := by
  exact ⟨h.wf, h.born, h.cur, h.nd, h.wait, h.cons, h.inc, h.own, h.uniq, h.objB, h.itB, h.itS, h.itG, h.ph, h.cw, h.susp, h.it,
    h.obj, h.lost, h.legal, by simpa [State.fail] using hu⟩

/-- Two frames that agree on everything but body state and input. -/
structure Same (f f' : Frame σ V E) : Prop where
  status : f'.status = f.status
  freed : f'.freed = f.freed
  value : f'.value = f.value
  exc : f'.exc = f.exc
  isGen : f'.isGen = f.isGen
  consumer : f'.consumer = f.consumer
  st : f.st.isSome = true → f'.st.isSome = true

theorem Same.absPh {f f' : Frame σ V E} (h : Same f f') : absPh f' = absPh f := by
  simp [AGen.absPh, h.status, h.freed, h.value, h.isGen, h.consumer]

theorem Inv.frames {s : State σ V E} (h : Inv s) (fr' : Nat → Frame σ V E) (he : ∀ c, Same (s.fr c) (fr' c)) :
    Inv { s with fr := fr' } := by
  refine ⟨?_, ?_, ?_, h.nd, ?_, ?_, ?_, ?_, h.uniq, h.objB, h.itB, h.itS, ?_, ?_, ?_, ?_, h.it, h.obj, ?_, h.legal, h.ub⟩
  · intro g
    have e := he g; have w := h.wf g
    exact ⟨by rw [e.status]; exact fun x => e.st (w.st x), by rw [e.status, e.freed]; exact w.unb,
      by rw [e.status, e.isGen, e.value, e.exc]; exact w.ini, by rw [e.status, e.isGen, e.value, e.exc]; exact w.yld,
      by rw [e.status, e.isGen, e.exc, e.consumer]; exact w.act, by rw [e.status, e.freed]; exact w.run,
      by rw [e.freed, e.isGen]; exact w.gen⟩
  · intro g; show _ ↔ (fr' g).status ≠ _; rw [(he g).status]; exact h.born g
  · intro g; show (fr' g).status = _ ↔ _; rw [(he g).status]; exact h.cur g
  · intro k g c; show (fr' k).status = _ → (fr' g).freed = _ ∨ ((fr' g).status.active = _ ∧ (fr' g).isGen = _ ∧ (fr' g).consumer = _)
    rw [(he k).status, (he g).freed, (he g).status, (he g).isGen, (he g).consumer]; exact h.wait k g c
  · intro g k
    show (fr' g).freed = _ → (fr' g).isGen = _ → (fr' g).status.active = _ → (fr' g).consumer = _ → ∃ c, (fr' k).status = _
    rw [(he k).status, (he g).freed, (he g).status, (he g).isGen, (he g).consumer]; exact h.cons g k
  · intro k g i; show (fr' k).status = _ → _; rw [(he k).status]; exact h.inc k g i
  · intro o g ho; show (fr' g).freed = _ ∧ (fr' g).status ≠ _ ∧ (fr' g).isGen = _
    rw [(he g).freed, (he g).status, (he g).isGen]; exact h.own o g ho
  · intro i g hi; show (fr' g).status ≠ _ ∧ (fr' g).isGen = _
    rw [(he g).status, (he g).isGen]; exact h.itG i g hi
  · intro c; show _ = absPh (fr' c); rw [(he c).absPh]; exact h.ph c
  · intro c; show _ = absCw (fr' c); rw [absCw, (he c).status]; exact h.cw c
  · intro c; show _ = absSusp (fr' c); rw [absSusp, (he c).status]; exact h.susp c
  · intro g; show (fr' g).status ≠ _ → (fr' g).freed = _ → (fr' g).isGen = _ → _
    rw [(he g).freed, (he g).status, (he g).isGen]; exact h.lost g

theorem Same.refl (f : Frame σ V E) : Same f f := ⟨rfl, rfl, rfl, rfl, rfl, rfl, id⟩

theorem Inv.reply {s : State σ V E} (h : Inv s) (c : Nat) (r : Resp V E) : Inv (s.reply c r) := by
  refine h.frames _ ?_
  intro c'
  by_cases e : c' = c
  · subst e; simp only [upd_same]; exact ⟨rfl, rfl, rfl, rfl, rfl, rfl, id⟩
  · rw [upd_other _ _ e]; exact Same.refl _

theorem Inv.bodySt {s : State σ V E} (h : Inv s) (c : Nat) (st : σ) (r : Resp V E) :
    Inv ({ s with fr := upd s.fr c { s.fr c with st := some st, inp := r } } : State σ V E) := by
  refine h.frames _ ?_
  intro c'
  by_cases e : c' = c
  · subst e; simp only [upd_same]; exact ⟨rfl, rfl, rfl, rfl, rfl, rfl, fun _ => rfl⟩
  · rw [upd_other _ _ e]; exact Same.refl _

theorem Inv.runnable {s : State σ V E} (h : Inv s) {k : Nat} (hc : k ∈ s.stack) : (Spec.after s.log).runnable k := by
  have hr := (h.cur k).2 hc
  have w := h.wf k
  refine ⟨by rw [h.cw]; simp [absCw, hr], by rw [h.susp]; simp [absSusp, hr], ?_⟩
  have hf := w.run hr
  cases hg : (s.fr k).isGen with
  | false => left; rw [h.ph]; simp [absPh, hf, hr, hg]
  | true =>
    right
    obtain ⟨k', hk'⟩ := Option.isSome_iff_exists.mp ((w.act (by simp [hr, Status.active])).2 hg)
    obtain ⟨c, hcw⟩ := h.cons k k' hf hg (by simp [hr, Status.active]) hk'
    refine ⟨k', ?_, ?_⟩
    · rw [h.ph]; simp [absPh, hf, hr, hg, hk']
    · rw [h.cw]; simp [absCw, hcw]

theorem Inv.itBorn {s : State σ V E} (h : Inv s) {i : Nat} {x : Option (Option Nat)} (e : s.it i = x) (hx : x ≠ none) :
    i < s.ni := by
  rcases Nat.lt_or_ge i s.ni with hl | hl
  · exact hl
  · exact absurd (e ▸ h.itB i hl) hx

theorem Inv.objBorn {s : State σ V E} (h : Inv s) {o : Nat} {x : Obj} (e : s.obj o = x) (hx : x ≠ .none) :
    o < s.no := by
  rcases Nat.lt_or_ge o s.no with hl | hl
  · exact hl
  · exact absurd (e ▸ h.objB o hl) hx

/-- Adding one event and changing only objects/iterators. -/
theorem Inv.emitEv {s : State σ V E} (h : Inv s) (e : Ev V E)
    (hok : (Spec.after s.log).ok e)
    (hph : ((Spec.after s.log).next e).ph = (Spec.after s.log).ph)
    (hcw : ((Spec.after s.log).next e).cw = (Spec.after s.log).cw)
    (hsu : ((Spec.after s.log).next e).susp = (Spec.after s.log).susp)
    (it' : Nat → Option (Option Nat)) (ni' : Nat) (obj' : Nat → Obj) (no' : Nat)
    (hit : ((Spec.after s.log).next e).it = it') (hobj : ((Spec.after s.log).next e).obj = obj')
    (hinc : ∀ k g i, (s.fr k).status = .waitGen g (.inc i) → it' i = some (some g))
    (hown : ∀ o g, obj' o = .live (some g) → ∃ o', s.obj o' = .live (some g))
    (huniq : ∀ o o' g, obj' o = .live (some g) → obj' o' = .live (some g) → o = o')
    (hlost : ∀ g, ((Spec.after s.log).lost g = true ∨ ∃ o, s.obj o = .live (some g)) →
       ((Spec.after s.log).next e).lost g = true ∨ ∃ o, obj' o = .live (some g))
    (hobjB : ∀ o, no' ≤ o → obj' o = .none) (hitB : ∀ i, ni' ≤ i → it' i = none)
    (hitS : ∀ i, i < ni' → it' i ≠ none)
    (hitG : ∀ i g, it' i = some (some g) → ∃ j, s.it j = some (some g)) :
    Inv (({ s with it := it', ni := ni', obj := obj', no := no' } : State σ V E).emit e) := by
  refine ⟨h.wf, h.born, h.cur, h.nd, h.wait, h.cons, hinc, ?_, huniq, hobjB, hitB, hitS, ?_, ?_, ?_, ?_, ?_, ?_, ?_, ?_, h.ub⟩
  · intro o g ho
    obtain ⟨o', ho'⟩ := hown o g ho
    exact h.own o' g ho'
  · intro i g hi
    obtain ⟨j, hj⟩ := hitG i g hi
    exact h.itG j g hj
  · intro c; show (Spec.after (s.log ++ [e])).ph c = _
    rw [Spec.after_snoc, hph]; exact h.ph c
  · intro c; show (Spec.after (s.log ++ [e])).cw c = _
    rw [Spec.after_snoc, hcw]; exact h.cw c
  · intro c; show (Spec.after (s.log ++ [e])).susp c = _
    rw [Spec.after_snoc, hsu]; exact h.susp c
  · show (Spec.after (s.log ++ [e])).it = _
    rw [Spec.after_snoc, hit]; rfl
  · show (Spec.after (s.log ++ [e])).obj = _
    rw [Spec.after_snoc, hobj]; rfl
  · intro g h1 h2 h3
    show (Spec.after (s.log ++ [e])).lost g = true ∨ _
    rw [Spec.after_snoc]
    exact hlost g (h.lost g h1 h2 h3)
  · exact h.legal.snoc hok

theorem Inv.emitQuiet {s : State σ V E} (h : Inv s) (e : Ev V E) (hok : (Spec.after s.log).ok e)
    (hn : (Spec.after s.log).next e = Spec.after s.log) : Inv (s.emit e) := by
  refine Inv.emitEv h e hok (by rw [hn]) (by rw [hn]) (by rw [hn]) s.it s.ni s.obj s.no (by rw [hn]; exact h.it)
    (by rw [hn]; exact h.obj) h.inc (fun o g ho => ⟨o, ho⟩) h.uniq ?_ h.objB h.itB h.itS (fun i g hi => ⟨i, hi⟩)
  intro g hg; rw [hn]; exact hg

theorem Inv.emitIt {s : State σ V E} (h : Inv s) (e : Ev V E) (x : Option (Option Nat)) (hx : x ≠ none)
    (hxg : ∀ g, x = some (some g) → ∃ j, s.it j = some (some g))
    (hok : (Spec.after s.log).ok e)
    (hn : (Spec.after s.log).next e = { Spec.after s.log with it := upd (Spec.after s.log).it s.ni x }) :
    Inv (({ s with it := upd s.it s.ni x, ni := s.ni + 1 } : State σ V E).emit e) := by
  refine Inv.emitEv h e hok (by rw [hn]) (by rw [hn]) (by rw [hn]) _ _ s.obj s.no (by rw [hn, h.it]) (by rw [hn]; exact h.obj) ?_
    (fun o g ho => ⟨o, ho⟩) h.uniq ?_ h.objB ?_ ?_ ?_
  · intro k g i hm
    have := h.inc k g i hm
    have hne : i ≠ s.ni := by intro e; have := h.itB i (by omega); simp_all
    rw [upd_other _ _ hne]; exact this
  · intro g hg; rw [hn]; exact hg
  · intro i hi; rw [upd_other _ _ (by omega)]; exact h.itB i (by omega)
  · intro i hi
    by_cases he : i = s.ni
    · subst he; simpa using hx
    · rw [upd_other _ _ he]; exact h.itS i (by omega)
  · intro i g
    by_cases he : i = s.ni
    · subst he; simpa using hxg g
    · rw [upd_other _ _ he]; exact fun a => ⟨i, a⟩

theorem Inv.objs {s : State σ V E} (h : Inv s) (e : Ev V E) (obj' : Nat → Obj) (no' : Nat)
    (hok : (Spec.after s.log).ok e)
    (hph : ((Spec.after s.log).next e).ph = (Spec.after s.log).ph)
    (hcw : ((Spec.after s.log).next e).cw = (Spec.after s.log).cw)
    (hsu : ((Spec.after s.log).next e).susp = (Spec.after s.log).susp)
    (hit : ((Spec.after s.log).next e).it = (Spec.after s.log).it)
    (hobj : ((Spec.after s.log).next e).obj = obj')
    (hown : ∀ o g, obj' o = .live (some g) → ∃ o', s.obj o' = .live (some g))
    (huniq : ∀ o o' g, obj' o = .live (some g) → obj' o' = .live (some g) → o = o')
    (hlost : ∀ g, ((Spec.after s.log).lost g = true ∨ ∃ o, s.obj o = .live (some g)) →
       ((Spec.after s.log).next e).lost g = true ∨ ∃ o, obj' o = .live (some g))
    (hobjB : ∀ o, no' ≤ o → obj' o = .none) :
    Inv (({ s with obj := obj', no := no' } : State σ V E).emit e) :=
  Inv.emitEv h e hok hph hcw hsu s.it s.ni obj' no' (by rw [hit]; exact h.it) hobj h.inc hown huniq hlost hobjB h.itB h.itS
    (fun i g hi => ⟨i, hi⟩)

end QCoro.AGen
