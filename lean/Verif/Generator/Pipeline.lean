import Verif.Generator.Pipe
/-! C81: one stage of a pipeline of synchronous generators, by an invariant over arbitrary histories; then whole pipelines. -/
set_option linter.unusedSimpArgs false
namespace QCoro.Gen
open QCoro.AGen (Out Stage stream)
variable {σ V E τ : Type}

/-- The state in which the action of the body on top of the stack is executed. -/
def started (s : State σ V E) (k : Nat) (st : σ) : State σ V E :=
  ({ s with fr := upd s.fr k { s.fr k with st := some st, inp := .unit } } : State σ V E).emit (.ran k)

/-- The different kinds of steps and what they do to everybody else; the index: the new events. -/
inductive StepCase (s s' : State σ V E) (op : Op σ V) : List (Ev V E) → Prop
  | idle : s' = s → StepCase s s' op []
  | main (e : Ev V E) : s.stack = [] → Effect s s' e → StepCase s s' op [e]
  | call (k : Nat) (kc : Call) (rest : List (Nat × Call)) (st : σ) (e : Ev V E) : op = .tick → s.stack = (k, kc) :: rest →
      Effect (started s k st) s' e → StepCase s s' op [.ran k, e]
  | leave (k : Nat) (kc : Call) (rest : List (Nat × Call)) (y e : Ev V E) : op = .tick → s.stack = (k, kc) :: rest →
      s'.log = s.log ++ [.ran k, y, e] → (∀ x, x ≠ k → out x y = none) → (∀ x, out x e = none) → (∀ j, e ≠ .ran j) →
      (∀ x c v, e ≠ .adv x c v ∧ y ≠ .adv x c v) → (∀ x v, e ≠ .poked x v ∧ y ≠ .poked x v) → s'.stack = rest → s'.nf = s.nf →
      (∀ i h, s.it i = some h → kc ≠ .inc i → s'.it i = some h) →
      (∀ x, x ≠ k → (∀ c t, rest ≠ (x, c) :: t) → s'.fr x = s.fr x) →
      ((∀ c t, rest ≠ (k, c) :: t) → (s'.fr k).status ≠ .running) → StepCase s s' op [.ran k, y, e]

theorem step_tick (P : Prog σ V E) {s : State σ V E} (hu : s.ub = none) {k : Nat} {kc : Call} {rest : List (Nat × Call)} {st st1 : σ} {r : Resp V E}
    {a : Act σ V E} (hs : s.stack = (k, kc) :: rest) (hst : (s.fr k).st = some st) (hr : (s.fr k).inp = r) (hn : P.next st r = (st1, a)) :
    step P s .tick = (started s k st1).body k kc rest a := by
  simp [step, hu, hs, hst, hr, hn, started]

theorem started_inv {s : State σ V E} (hi : Inv s) {k : Nat} (hrun : (s.fr k).status = .running) (st : σ) : Inv (started s k st) := by
  have h1 := hi.bodySt hrun st .unit
  refine h1.emitQuiet _ ?_ rfl
  have hf := ((hi.wf k).run hrun).2
  show (Spec.after s.log).ph k = _
  rw [hi.ph]; simp [absPh, hrun, hf]

theorem step_ub_none (P : Prog σ V E) (s : State σ V E) (op : Op σ V) (h : (step P s op).ub = none) : s.ub = none := by
  cases hu : s.ub with
  | none => rfl
  | some u => simp [step, hu] at h

/-- Leaving a body: all three ways. -/
theorem leave_case {s : State σ V E} (hi : Inv s) {k : Nat} {kc : Call} {rest : List (Nat × Call)} {st : σ} (hs : s.stack = (k, kc) :: rest)
    (f : Frame σ V E) (y : Ev V E) (hy : ∀ x, x ≠ k → out x y = none) (ha : ∀ x c v, y ≠ .adv x c v) (hp : ∀ x v, y ≠ .poked x v) (hf : f.status ≠ .running)
    (hub : (((({ started s k st with fr := upd (started s k st).fr k f, stack := rest } : State σ V E).emit y).after k kc).ub = none)) :
    ∃ l, ((({ started s k st with fr := upd (started s k st).fr k f, stack := rest } : State σ V E).emit y).after k kc).log = s.log ++ l ∧
      StepCase s ((({ started s k st with fr := upd (started s k st).fr k f, stack := rest } : State σ V E).emit y).after k kc) .tick l := by
  obtain ⟨e, h1, h2, h3, h4, h5, h6, h7, h8, h9⟩ := after_effect (by simpa [State.emit, started] using hi.itB) hub
  have hl : ((({ started s k st with fr := upd (started s k st).fr k f, stack := rest } : State σ V E).emit y).after k kc).log = s.log ++ [.ran k, y, e] := by
    rw [h1]; simp [State.emit, started]
  refine ⟨_, hl, .leave k kc rest y e rfl hs hl hy h2 h3 (fun x c v => ⟨h4 x c v, ha x c v⟩) (fun x v => ⟨h5 x v, hp x v⟩) h6 h7 h8 ?_ ?_⟩
  · intro x hx hr
    rw [h9 x hr]; simp [State.emit, started, upd_other _ _ hx]
  · intro hr
    rw [h9 k hr]; simpa [State.emit] using hf

theorem step_case (P : Prog σ V E) {s : State σ V E} (hi : Inv s) (op : Op σ V) (hub : (step P s op).ub = none) :
    ∃ l, (step P s op).log = s.log ++ l ∧ StepCase s (step P s op) op l := by
  have hu := step_ub_none P s op hub
  cases op with
  | main a =>
    cases hs : s.stack with
    | nil =>
      have e : step P s (.main a) = s.api a := by simp [step, hu, hs]
      rw [e] at hub ⊢
      obtain ⟨ev, h⟩ := api_effect hi a hub
      exact ⟨[ev], h.log, .main ev hs h⟩
    | cons p rest =>
      have e : step P s (.main a) = s := by simp [step, hu, hs]
      rw [e]
      exact ⟨[], by simp, .idle rfl⟩
  | tick =>
    cases hs : s.stack with
    | nil =>
      have e : step P s .tick = s := by simp [step, hu, hs]
      rw [e]
      exact ⟨[], by simp, .idle rfl⟩
    | cons p rest =>
      obtain ⟨k, kc⟩ := p
      have hrun : (s.fr k).status = .running := (hi.run k).2 (by simp [hs])
      obtain ⟨st, hst⟩ := Option.isSome_iff_exists.1 ((hi.wf k).st (by simp [hrun]))
      have hpair : P.next st (s.fr k).inp = ((P.next st (s.fr k).inp).1, (P.next st (s.fr k).inp).2) := rfl
      generalize (P.next st (s.fr k).inp).1 = b1 at hpair
      generalize (P.next st (s.fr k).inp).2 = a at hpair
      have he := step_tick P hu hs hst rfl hpair
      rw [he] at hub ⊢
      cases a with
      | api a =>
        obtain ⟨ev, h⟩ := api_effect (started_inv hi hrun b1) a hub
        exact ⟨[.ran k, ev], by rw [show (State.body (started s k b1) k kc rest (.api a)) = (started s k b1).api a from rfl, h.log]; simp [started, State.emit],
          .call k kc rest b1 ev rfl hs h⟩
      | yield v =>
        exact leave_case hi hs { (started s k b1).fr k with value := some v, status := .yielded } (.yielded k v) (fun x hx => by simp [out, Ne.symm hx]) (by simp) (by simp) (by simp) hub
      | ret =>
        exact leave_case hi hs { (started s k b1).fr k with value := none, status := .done } (.returned k) (fun x hx => by simp [out, Ne.symm hx]) (by simp) (by simp) (by simp) hub
      | throw e =>
        exact leave_case hi hs { (started s k b1).fr k with exc := some e, value := none, status := .done } (.raised k e) (fun x hx => by simp [out, Ne.symm hx]) (by simp) (by simp) (by simp) hub

/-- What a step of somebody else may do to frame `x`. -/
def Moved (x : Nat) (s s' : State σ V E) (l : List (Ev V E)) : Prop :=
  (∃ d, s'.fr x = { s.fr x with freed := d } ∧ ((s.fr x).status = .running → d = (s.fr x).freed)) ∨
  (∃ c r, Ev.adv x c (s.fr x).value ∈ l ∧ s'.fr x = { s.fr x with status := .running, inp := r } ∧ s'.stack = (x, c) :: s.stack ∧
    ((s.fr x).status = .initial ∧ r = .start ∨ (s.fr x).status = .yielded ∧ ∃ v, (s.fr x).value = some v ∧ r = .resumed v)) ∨
  ∃ v, Ev.poked x v ∈ l

/-- A step in which `x` does not act. -/
structure Quiet (x : Nat) (s s' : State σ V E) (l : List (Ev V E)) : Prop where
  outs : outs x l = []
  fr : (∀ p c t, s.stack ≠ p :: (x, c) :: t) → Moved x s s' l

theorem StepCase.quiet {s s' : State σ V E} {op : Op σ V} {l : List (Ev V E)} (h : StepCase s s' op l) {x : Nat} (hx : x < s.nf)
    (ht : op = .tick → ∀ c t, s.stack ≠ (x, c) :: t) : Quiet x s s' l := by
  cases h with
  | idle h => subst h; exact ⟨rfl, fun _ => .inl ⟨_, rfl, fun _ => rfl⟩⟩
  | main e hs h =>
    refine ⟨outs_one (h.out x), fun _ => ?_⟩
    rcases h.fr x hx (by simp [hs]) with ⟨d, h1, h2⟩ | ⟨c, r, h1, h2, h3, h4⟩ | ⟨v, h1⟩
    · exact .inl ⟨d, h1, h2⟩
    · exact .inr (.inl ⟨c, r, by simp [h1], h2, h3, h4⟩)
    · exact .inr (.inr ⟨v, by simp [h1]⟩)
  | call k kc rest st e ho hs h =>
    have hk : x ≠ k := by rintro rfl; exact ht ho kc rest hs
    have hf : (started s k st).fr x = s.fr x := by simp [started, State.emit, upd_other _ _ hk]
    have hst : (started s k st).stack = s.stack := rfl
    refine ⟨?_, fun _ => ?_⟩
    · have : outs x [.ran k, e] = outs x [e] := by simp [outs, out, List.filterMap_cons]
      rw [this]; exact outs_one (h.out x)
    · have := h.fr x hx (by rw [hst]; exact ht ho)
      rw [hf, hst] at this
      rcases this with ⟨d, h1, h2⟩ | ⟨c, r, h1, h2, h3, h4⟩ | ⟨v, h1⟩
      · exact .inl ⟨d, h1, h2⟩
      · exact .inr (.inl ⟨c, r, by simp [h1], h2, h3, h4⟩)
      · exact .inr (.inr ⟨v, by simp [h1]⟩)
  | leave k kc rest y e ho hs hl hy he hr ha hp hst hn hit hfr hk =>
    have hk : x ≠ k := by rintro rfl; exact ht ho kc rest hs
    refine ⟨?_, fun h2 => .inl ⟨(s.fr x).freed, ?_, fun _ => rfl⟩⟩
    · rw [show ([Ev.ran k, y, e] : List (Ev V E)) = [.ran k] ++ ([y] ++ [e]) from rfl, outs_append, outs_append, outs_one (hy x hk), outs_one (he x)]
      rfl
    · rw [hfr x hk (fun c t h => h2 (k, kc) c t (by rw [hs, h]))]

theorem StepCase.nf {s s' : State σ V E} {op : Op σ V} {l : List (Ev V E)} (h : StepCase s s' op l) : s.nf ≤ s'.nf := by
  cases h with
  | idle h => subst h; exact Nat.le_refl _
  | main e hs h => exact h.nf
  | call k kc rest st e ho hs h => exact h.nf
  | leave k kc rest y e ho hs hl hy he hr ha hp hst hn hit hfr hk => omega

theorem StepCase.it {s s' : State σ V E} {op : Op σ V} {l : List (Ev V E)} (h : StepCase s s' op l) {i : Nat} {x : Option Nat} (hx : s.it i = some x)
    (ht : op = .tick → ∀ k t, s.stack ≠ (k, .inc i) :: t) : s'.it i = some x := by
  cases h with
  | idle h => subst h; exact hx
  | main e hs h => exact h.it i x hx
  | call k kc rest st e ho hs h => exact h.it i x hx
  | leave k kc rest y e ho hs hl hy he hr ha hp hst hn hit hfr hk =>
    exact hit i x hx (by rintro rfl; exact ht ho k rest hs)

/-- Only the body on top of the stack, or the main program, advances a generator. -/
theorem StepCase.adv {s s' : State σ V E} {op : Op σ V} {l : List (Ev V E)} (h : StepCase s s' op l) {g : Nat} {c : Call} {v : Option V}
    (hm : Ev.adv g c v ∈ l) : l = [.adv g c v] ∨ ∃ k kc rest, op = .tick ∧ s.stack = (k, kc) :: rest ∧ l = [.ran k, .adv g c v] := by
  cases h with
  | idle h => simp at hm
  | main e hs h => simp at hm; exact .inl (by rw [hm])
  | call k kc rest st e ho hs h => simp at hm; exact .inr ⟨k, kc, rest, ho, hs, by rw [hm]⟩
  | leave k kc rest y e ho hs hl hy he hr ha hp hst hn hit hfr hk =>
    simp at hm
    rcases hm with hm | hm
    · exact absurd hm.symm (ha g c v).2
    · exact absurd hm.symm (ha g c v).1

theorem StepCase.last {s s' : State σ V E} {op : Op σ V} {l : List (Ev V E)} (h : StepCase s s' op l) (k : Nat) : l.getLast? ≠ some (.ran k) := by
  cases h with
  | idle h => simp
  | main e hs h => simpa using h.ran k
  | call k' kc rest st e ho hs h => simpa using h.ran k
  | leave k' kc rest y e ho hs hl hy he hr => simpa using hr k

theorem StepCase.stack {s s' : State σ V E} {op : Op σ V} {l : List (Ev V E)} (h : StepCase s s' op l) {p : Nat × Call} {t : List (Nat × Call)}
    (hs : s.stack = p :: t) : s'.stack = t ∨ s'.stack = p :: t ∨ ∃ y, s'.stack = y :: p :: t := by
  cases h with
  | idle h => subst h; exact .inr (.inl hs)
  | main e hs' h => rw [hs] at hs'; cases hs'
  | call k kc rest st e ho hs' h =>
    have e1 : (started s k st).stack = s.stack := rfl
    rcases h.stack with h | ⟨g, c, v, _, h⟩
    · exact .inr (.inl (by rw [h, e1, hs]))
    · exact .inr (.inr ⟨_, by rw [h, e1, hs]⟩)
  | leave k kc rest y e ho hs' hl hy he hr ha hp hst hn hit hfr hk =>
    rw [hs] at hs'; cases hs'; exact .inl hst

end QCoro.Gen
