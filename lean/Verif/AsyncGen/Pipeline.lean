import Verif.AsyncGen.Pipe
/-! C75: one stage of a pipeline of asynchronous generators, by an invariant over arbitrary histories. -/
set_option linter.unusedSimpArgs false
namespace QCoro.AGen
variable {σ V E τ : Type}

theorem transfer_own {s : State σ V E} {k : Nat} (hs : ∀ g c, (s.fr k).status ≠ .waitGen g c) (hub : (s.transfer k).ub = none) :
    ∃ l, (s.transfer k).log = s.log ++ l ∧ outs k l = [] ∧ (∀ g, readsBy k g l = []) ∧ ((s.transfer k).fr k).st = (s.fr k).st ∧
      ((s.transfer k).fr k).status = (s.fr k).status ∧ ((s.transfer k).fr k).value = (s.fr k).value ∧ ∀ g k' c, Ev.adv g k' c ∉ l := by
  simp only [State.transfer] at hub ⊢
  split at hub
  · simp [State.fail] at hub
  · rename_i k' hk'
    split at hub
    · simp [State.fail] at hub
    · rename_i hf
      split at hub
      · rename_i g c hw
        have hne : k ≠ k' := by rintro rfl; exact hs _ _ hw
        simp only [hk', hf, hw, Bool.false_eq_true, if_false]
        cases c <;> simp only [State.awaitResume] <;> (repeat' split) <;>
          simp [State.emit, State.reply, outs, out, readsBy, List.filterMap_cons, upd_other, hne]
      · simp [State.fail] at hub

theorem step_tick (P : Prog σ V E) {s : State σ V E} (hu : s.ub = none) {c : Nat} {rest : List Nat} {st st1 : σ} {r : Resp V E} {a : Act σ V E}
    (hs : s.stack = c :: rest) (hst : (s.fr c).st = some st) (hr : (s.fr c).inp = r) (hn : P.next st r = (st1, a)) :
    step P s .tick = (({ s with fr := upd s.fr c { s.fr c with st := some st1, inp := .unit } } : State σ V E).emit (.ran c)).act c a := by
  simp [step, hu, hs, hst, hr, hn]

theorem own_yield (P : Prog σ V E) {s : State σ V E} (hu : s.ub = none) {c : Nat} {rest : List Nat} {st st1 : σ} {r : Resp V E} {w : V}
    (hs : s.stack = c :: rest) (hst : (s.fr c).st = some st) (hr : (s.fr c).inp = r)
    (hn : P.next st r = (st1, .yield w)) (hub : (step P s .tick).ub = none) :
    ∃ l, (step P s .tick).log = s.log ++ l ∧ outs c l = [.val w] ∧ (∀ g, readsBy c g l = []) ∧ ((step P s .tick).fr c).st = some st1 ∧
      ((step P s .tick).fr c).status = .atYield ∧ ((step P s .tick).fr c).value = some w ∧ ∀ g k' call, Ev.adv g k' call ∉ l := by
  rw [step_tick P hu hs hst hr hn] at hub ⊢
  simp only [State.act] at hub ⊢
  split at hub
  · rename_i hg
    rw [if_pos hg]
    obtain ⟨l, h1, h2, h3, h4, h5, h6, h7⟩ := transfer_own (by simp [State.emit]) hub
    refine ⟨.ran c :: .yielded c w :: l, by rw [h1]; simp [State.emit], ?_, ?_, by rw [h4]; simp [State.emit], by rw [h5]; simp [State.emit], by rw [h6]; simp [State.emit], by simpa using h7⟩
    · have : outs c (.ran c :: .yielded c w :: l) = Out.val w :: outs c l := by simp [outs, out, List.filterMap_cons]
      rw [this, h2]
    · intro g
      have : readsBy c g (.ran c :: .yielded c w :: l) = readsBy c g l := by simp [readsBy, List.filterMap_cons]
      rw [this, h3]
  · simp [State.fail] at hub

theorem own_end (P : Prog σ V E) {s : State σ V E} (hu : s.ub = none) {c : Nat} {rest : List Nat} {st st1 : σ} {r : Resp V E} {a : Act σ V E}
    {f : Option E} (ha : f = none ∧ a = .ret ∨ ∃ e, f = some e ∧ a = .throw e)
    (hs : s.stack = c :: rest) (hst : (s.fr c).st = some st) (hr : (s.fr c).inp = r)
    (hn : P.next st r = (st1, a)) (hub : (step P s .tick).ub = none) :
    ∃ l, (step P s .tick).log = s.log ++ l ∧ outs c l = [.stop f] ∧ (∀ g, readsBy c g l = []) ∧ ((step P s .tick).fr c).status = .done ∧
      ∀ g k' call, Ev.adv g k' call ∉ l := by
  rw [step_tick P hu hs hst hr hn] at hub ⊢
  have main : ∀ (s1 : State σ V E) ev, s1.log = s.log ++ [.ran c, ev] → (s1.fr c).status = .done → out c ev = some (.stop f) →
      (∀ g, readsBy c g [ev] = []) → (∀ g k' call, Ev.adv g k' call ≠ ev) → (s1.transfer c).ub = none →
      ∃ l, (s1.transfer c).log = s.log ++ l ∧ outs c l = [.stop f] ∧ (∀ g, readsBy c g l = []) ∧ ((s1.transfer c).fr c).status = .done ∧
        ∀ g k' call, Ev.adv g k' call ∉ l := by
    intro s1 ev e1 e2 e3 e4 e5 hub
    obtain ⟨l, h1, h2, h3, h4, h5, h6, h7⟩ := transfer_own (by simp [e2]) hub
    refine ⟨.ran c :: ev :: l, by rw [h1, e1]; simp, ?_, ?_, by rw [h5, e2], by simpa [e5] using h7⟩
    · have : outs c (.ran c :: ev :: l) = Out.stop f :: outs c l := by
        rw [outs, List.filterMap_cons, show out c (Ev.ran c : Ev V E) = none from rfl]
        dsimp only
        rw [List.filterMap_cons, e3]; rfl
      rw [this, h2]
    · intro g
      have : readsBy c g (.ran c :: ev :: l) = readsBy c g [ev] ++ readsBy c g l := by rw [← readsBy_append]; simp [readsBy, List.filterMap_cons]
      rw [this, h3, e4]; rfl
  rcases ha with ⟨rfl, rfl⟩ | ⟨e, rfl, rfl⟩
  · simp only [State.act] at hub ⊢
    split at hub
    · rename_i hg
      rw [if_pos hg]
      exact main _ (.returned c) (by simp [State.emit]) (by simp [State.emit]) (by simp [out]) (by simp [readsBy]) (by simp) hub
    · rename_i hg
      rw [if_neg hg]
      exact ⟨[.ran c, .finished c none], by simp [State.emit], by simp [outs, out, List.filterMap_cons], by simp [readsBy], by simp [State.emit], by simp⟩
  · simp only [State.act] at hub ⊢
    split at hub
    · rename_i hg
      rw [if_pos hg]
      exact main _ (.raised c e) (by simp [State.emit]) (by simp [State.emit]) (by simp [out]) (by simp [readsBy]) (by simp) hub
    · rename_i hg
      rw [if_neg hg]
      exact ⟨[.ran c, .finished c (some e)], by simp [State.emit], by simp [outs, out, List.filterMap_cons], by simp [readsBy], by simp [State.emit], by simp⟩

/-- The coroutine goes on in state `st`, told `r`: now, when what it awaits completes, or when its consumer resumes it. -/
def Ctl (f : Frame σ V E) (st : σ) (r : Resp V E) : Prop :=
  f.st = some st ∧ (f.status = .running ∧ f.inp = r ∨ f.status = .waitExt ∧ r = .unit ∨ f.status = .initial ∧ f.value = none ∧ r = .start ∨
    f.status = .atYield ∧ ∃ w, f.value = some w ∧ r = .resumed w)

theorem Ctl.apart {x : Nat} {f f' : Frame σ V E} {l : List (Ev V E)} {st : σ} {r : Resp V E} (h : Ctl f st r) (ha : Apart x f f' l)
    (hp : ∀ i v, Ev.poked i x v ∉ l) : Ctl f' st r := by
  rcases ha with ⟨d, rfl⟩ | ⟨k, c, _, hs, rfl⟩ | ⟨hs, rfl⟩ | ⟨i, v, hm⟩
  · exact h
  · refine ⟨h.1, .inl ⟨rfl, ?_⟩⟩
    rcases h.2 with h | h | h | ⟨h, w, hw, rfl⟩
    · simp [h.1] at hs
    · simp [h.1] at hs
    · simp [Frame.wake, h.2.1, h.2.2]
    · simp [Frame.wake, hw]
  · refine ⟨h.1, .inl ⟨rfl, ?_⟩⟩
    rcases h.2 with h | h | h | h
    · simp [h.1] at hs
    · exact h.2.symm
    · simp [h.1] at hs
    · simp [h.1] at hs
  · exact absurd hm (hp i v)

theorem Ctl.notWait {f : Frame σ V E} {st : σ} {r : Resp V E} (h : Ctl f st r) (g : Nat) (c : Call) : f.status ≠ .waitGen g c := by
  rcases h.2 with h | h | h | h <;> simp [h.1]

theorem Ctl.running {f : Frame σ V E} {st : σ} {r : Resp V E} (h : Ctl f st r) (hr : f.status = .running) : f.inp = r := by
  rcases h.2 with h | h | h | h
  · exact h.2
  · simp [hr] at h
  · simp [hr] at h
  · simp [hr] at h

/-- The loop bodies for the values `vs` are through. -/
inductive Stage.Ran (K : Stage τ V E) : τ → List V → τ → List V → Prop
  | nil (t : τ) : Ran K t [] t []
  | snoc {t t' t'' : τ} {vs zs : List V} {v : V} : Ran K t vs t' zs → (K.body t' v).2 = .inl t'' → Ran K t (vs ++ [v]) t'' (zs ++ (K.body t' v).1)

theorem Stage.Ran.through {K : Stage τ V E} {t t' : τ} {vs zs : List V} (h : K.Ran t vs t' zs) {Y Z : List (Out V E)} (hT : K.Through t' Y Z) :
    K.Through t (vs.map .val ++ Y) (zs.map .val ++ Z) := by
  induction h generalizing Y Z with
  | nil => simpa using hT
  | snoc _ hb ih =>
    have := ih (Stage.Through.next _ _ _ _ _ hb hT)
    simpa using this

/-- Where a stage of a pipeline can be. -/
inductive Stage.At (K : Stage τ V E) (P : Prog σ V E) (S : IsStage P K) (c g : Nat) (t0 : τ) (s : State σ V E) (n : List (Ev V E)) : Prop
  | wait (t : τ) (vs zs : List V) (k : Call) : K.Ran t0 vs t zs → (s.fr c).st = some (S.head t) → (s.fr c).status = .waitGen g k →
      outs g n = vs.map .val → outs c n = zs.map .val → readsBy c g n = vs → At K P S c g t0 s n
  | got (t : τ) (vs zs : List V) (i : Nat) (v : V) : K.Ran t0 vs t zs → (s.fr c).status = .running →
      ((s.fr c).st = some (S.head t) ∧ (s.fr c).inp = .iter i ∨ (s.fr c).st = some (S.test t i) ∧ (s.fr c).inp = .flag false) →
      s.it i = some (some g) → (s.fr g).status = .atYield → (s.fr g).value = some v →
      outs g n = (vs ++ [v]).map .val → outs c n = zs.map .val → readsBy c g n = vs → At K P S c g t0 s n
  | body (t : τ) (vs zs : List V) (i : Nat) (v : V) (st : σ) (r : Resp V E) (done rest : List V) (q : τ ⊕ Option E) : K.Ran t0 vs t zs →
      Ctl (s.fr c) st r → InBody P i st r rest (match q with | .inl t' => .inl (S.head t') | .inr f => .inr f) →
      K.body t v = (done ++ rest, q) → s.it i = some (some g) → (s.fr g).status = .atYield →
      outs g n = (vs ++ [v]).map .val → outs c n = (zs ++ done).map .val → readsBy c g n = vs ++ [v] → At K P S c g t0 s n
  | ended (t : τ) (vs zs : List V) (i : Nat) : K.Ran t0 vs t zs → (s.fr c).status = .running → (s.fr c).st = some (S.head t) →
      (s.fr c).inp = .iter i → s.it i = some none → (s.fr g).status = .done →
      outs g n = vs.map .val ++ [.stop none] → outs c n = zs.map .val → readsBy c g n = vs → At K P S c g t0 s n
  | tail (t : τ) (vs zs : List V) (f : Option E) (w : List V × Option E) (st : σ) (r : Resp V E) (done rest : List V) : K.Ran t0 vs t zs →
      Ctl (s.fr c) st r → Emits P st r rest w.2 → w.1 = done ++ rest → (f = none ∧ w = K.fin t ∨ ∃ e, f = some e ∧ w = K.fail t e) →
      (s.fr g).status = .done → outs g n = vs.map .val ++ [.stop f] → outs c n = (zs ++ done).map .val → readsBy c g n = vs →
      At K P S c g t0 s n
  | over : (s.fr c).status = .done → ((s.fr g).status = .atYield ∨ (s.fr g).status = .done) → K.Through t0 (outs g n) (outs c n) →
      readsBy c g n = vals (outs g n) → At K P S c g t0 s n

/-- The parked source does not move while somebody else acts. -/
theorem Apart.parked {x : Nat} {f f' : Frame σ V E} {l : List (Ev V E)} (ha : Apart x f f' l) (hp : ∀ i v, Ev.poked i x v ∉ l)
    (hs : f.status = .atYield ∨ f.status = .done) (hadv : ∀ k c, Ev.adv x k c ∉ l) : f'.status = f.status ∧ f'.value = f.value := by
  rcases ha with ⟨d, rfl⟩ | ⟨k, c, h, _⟩ | ⟨h, _⟩ | ⟨i, v, hm⟩
  · exact ⟨rfl, rfl⟩
  · exact absurd h (hadv k c)
  · simp [h] at hs
  · exact absurd hm (hp i v)

/-- A coroutine that runs, or waits for a generator, stays so while somebody else acts. -/
theorem Apart.keeps {x : Nat} {f f' : Frame σ V E} {l : List (Ev V E)} (ha : Apart x f f' l) (hp : ∀ i v, Ev.poked i x v ∉ l)
    (hs : f.status = .running ∨ f.status = .done ∨ ∃ g c, f.status = .waitGen g c) : f'.status = f.status ∧ f'.st = f.st ∧ f'.inp = f.inp := by
  rcases ha with ⟨d, rfl⟩ | ⟨k, c, _, h, _⟩ | ⟨h, _⟩ | ⟨i, v, hm⟩
  · exact ⟨rfl, rfl, rfl⟩
  · rcases h with h | h <;> simp [h] at hs
  · simp [h] at hs
  · exact absurd hm (hp i v)

/-- Somebody other than `c` acts (and, if `c` waits for `g`, other than `g`). -/
theorem at_other (P : Prog σ V E) (K : Stage τ V E) (S : IsStage P K) {c g : Nat} {t0 : τ} {s : State σ V E} {n l : List (Ev V E)} (op : Op σ)
    (hi : Inv s) (hu : s.ub = none) (hub : (step P s op).ub = none) (hc : c < s.nf) (hg : g < s.nf)
    (h : K.At P S c g t0 s n) (hl : (step P s op).log = s.log ++ l) (h1 : op = .tick → ∀ rest, s.stack ≠ c :: rest)
    (h2 : op = .tick → ∀ rest, s.stack = g :: rest → ∀ k, (s.fr c).status ≠ .waitGen g k)
    (hal : ∀ k call, Ev.adv g k call ∈ l → k = c) (hpg : ∀ i v, Ev.poked i g v ∉ l) (hpc : ∀ i v, Ev.poked i c v ∉ l) :
    K.At P S c g t0 (step P s op) (n ++ l) := by
  obtain ⟨l', e1, o1, r1, a1, p1⟩ := step_other P hi hu op hub hc h1
  have el : l' = l := by rw [e1] at hl; exact List.append_cancel_left hl
  subst el
  have hadv : ∀ k call, Ev.adv g k call ∉ l' := by
    intro k call hm
    have := hal k call hm
    subst this
    obtain ⟨h3, rest, h4⟩ := a1 g k call hm
    exact h1 h3 rest h4
  have nog : (s.fr g).status ≠ .running → op = .tick → ∀ rest, s.stack ≠ g :: rest := by
    intro hn _ rest hs
    exact hn ((hi.cur g).2 (by simp [hs]))
  have og : (op = .tick → ∀ rest, s.stack ≠ g :: rest) → outs g l' = [] := by
    intro hn
    obtain ⟨l2, e2, o2, _⟩ := step_other P hi hu op hub hg hn
    have : l2 = l' := by rw [e2] at hl; exact List.append_cancel_left hl
    subst this; exact o2
  have pg : ((s.fr g).status = .atYield ∨ (s.fr g).status = .done) →
      ((step P s op).fr g).status = (s.fr g).status ∧ ((step P s op).fr g).value = (s.fr g).value ∧ outs g l' = [] := by
    intro hs
    have hn : (s.fr g).status ≠ .running := by rcases hs with h | h <;> simp [h]
    obtain ⟨l2, e2, o2, _, _, p2⟩ := step_other P hi hu op hub hg (nog hn)
    have : l2 = l' := by rw [e2] at hl; exact List.append_cancel_left hl
    subst this
    have ap := p2 (fun _ k rest st _ _ => .inr (fun c => by rcases hs with h | h <;> simp [h]))
    have := ap.parked hpg hs hadv
    exact ⟨this.1, this.2, o2⟩
  have itg : (s.fr g).status ≠ .running → ∀ i h, (h = none ∨ h = some g) → s.it i = some h → (step P s op).it i = some h := by
    intro hn i h hh hit
    refine step_it P hi op hit ?_
    intro ht k rest hs e
    rcases hh with rfl | rfl
    · cases e
    · cases e; exact nog hn ht rest hs
  cases h with
  | wait t vs zs k h1' h2' h3 h4 h5 h6 =>
    have ap := p1 (fun ht k' rest st hs _ => .inr (fun c' e => by
      rw [h3] at e; cases e; exact h2 ht rest hs k h3))
    have kp := ap.keeps hpc (.inr (.inr ⟨g, k, h3⟩))
    have ho := og (fun ht rest hs => h2 ht rest hs k h3)
    refine .wait t vs zs k h1' (by rw [kp.2.1]; exact h2') (by rw [kp.1]; exact h3) ?_ ?_ ?_
    · rw [outs_append, ho, h4]; simp
    · rw [outs_append, o1, h5]; simp
    · rw [readsBy_append, r1, h6]; simp
  | got t vs zs i v h1' h2' h3 h4 h5 h6 h7 h8 h9 =>
    have ap := p1 (fun _ k' rest st hs _ => .inr (fun c' => by simp [h2']))
    have kp := ap.keeps hpc (.inl h2')
    have kg := pg (.inl h5)
    refine .got t vs zs i v h1' (by rw [kp.1]; exact h2') (by rw [kp.2.1, kp.2.2]; exact h3) (itg (by simp [h5]) i _ (.inr rfl) h4)
      (by rw [kg.1]; exact h5) (by rw [kg.2.1]; exact h6) ?_ ?_ ?_
    · rw [outs_append, kg.2.2, h7]; simp
    · rw [outs_append, o1, h8]; simp
    · rw [readsBy_append, r1, h9]; simp
  | body t vs zs i v st r done rest q h1' h2' h3 h4 h5 h6 h7 h8 h9 =>
    have ap := p1 (fun _ k' rest st hs _ => .inr (fun c' => h2'.notWait _ _))
    have kg := pg (.inl h6)
    refine .body t vs zs i v st r done rest q h1' (h2'.apart ap hpc) h3 h4 (itg (by simp [h6]) i _ (.inr rfl) h5) (by rw [kg.1]; exact h6) ?_ ?_ ?_
    · rw [outs_append, kg.2.2, h7]; simp
    · rw [outs_append, o1, h8]; simp
    · rw [readsBy_append, r1, h9]; simp
  | ended t vs zs i h1' h2' h3 h4 h5 h6 h7 h8 h9 =>
    have ap := p1 (fun _ k' rest st hs _ => .inr (fun c' => by simp [h2']))
    have kp := ap.keeps hpc (.inl h2')
    have kg := pg (.inr h6)
    refine .ended t vs zs i h1' (by rw [kp.1]; exact h2') (by rw [kp.2.1]; exact h3) (by rw [kp.2.2]; exact h4)
      (itg (by simp [h6]) i _ (.inl rfl) h5) (by rw [kg.1]; exact h6) ?_ ?_ ?_
    · rw [outs_append, kg.2.2, h7]; simp
    · rw [outs_append, o1, h8]; simp
    · rw [readsBy_append, r1, h9]; simp
  | tail t vs zs f w st r done rest h1' h2' h3 h4 h5 h6 h7 h8 h9 =>
    have ap := p1 (fun _ k' rest st hs _ => .inr (fun c' => h2'.notWait _ _))
    have kg := pg (.inr h6)
    refine .tail t vs zs f w st r done rest h1' (h2'.apart ap hpc) h3 h4 h5 (by rw [kg.1]; exact h6) ?_ ?_ ?_
    · rw [outs_append, kg.2.2, h7]; simp
    · rw [outs_append, o1, h8]; simp
    · rw [readsBy_append, r1, h9]; simp
  | over h1' h2' h3 h4 =>
    have ap := p1 (fun _ k' rest st hs _ => .inr (fun c' => by simp [h1']))
    have kp := ap.keeps hpc (.inr (.inl h1'))
    have kg := pg h2'
    refine .over (by rw [kp.1]; exact h1') (by rw [kg.1]; exact h2') ?_ ?_
    · rw [outs_append, outs_append, kg.2.2, o1]; simpa using h3
    · rw [readsBy_append, r1, outs_append, kg.2.2, h4]; simp

/-- The source acts while the stage waits for it. -/
theorem at_source (P : Prog σ V E) (K : Stage τ V E) (S : IsStage P K) {c g : Nat} {t0 : τ} {s : State σ V E} {n l : List (Ev V E)}
    (hi : Inv s) (hu : s.ub = none) (hub : (step P s .tick).ub = none) (hc : c < s.nf) (hne : c ≠ g) {rest : List Nat} (hs : s.stack = g :: rest)
    {t : τ} {vs zs : List V} {k : Call} (hR : K.Ran t0 vs t zs) (hst : (s.fr c).st = some (S.head t)) (hw : (s.fr c).status = .waitGen g k)
    (hY : outs g n = vs.map .val) (hZ : outs c n = zs.map .val) (hrd : readsBy c g n = vs) (hl : (step P s .tick).log = s.log ++ l)
    (hpc : ∀ i v, Ev.poked i c v ∉ l) :
    K.At P S c g t0 (step P s .tick) (n ++ l) := by
  have hrun : (s.fr g).status = .running := (hi.cur g).2 (by simp [hs])
  obtain ⟨b, hb⟩ := Option.isSome_iff_exists.1 ((hi.wf g).st (by simp [hrun]))
  have hgf := (hi.wf g).run hrun
  have hex := ((hi.wf g).act (by simp [hrun, Status.active])).1
  obtain ⟨hgen, hcons⟩ : (s.fr g).isGen = true ∧ (s.fr g).consumer = some c := by
    rcases hi.wait c g k hw with h | ⟨_, h1, h2⟩
    · simp [h] at hgf
    · exact ⟨h1, h2⟩
  have hpair : P.next b (s.fr g).inp = ((P.next b (s.fr g).inp).1, (P.next b (s.fr g).inp).2) := rfl
  generalize (P.next b (s.fr g).inp).1 = b1 at hpair
  generalize (P.next b (s.fr g).inp).2 = a at hpair
  have hstep := step_tick P hu hs hb rfl hpair
  obtain ⟨l0, e1, o1, r1, _, p1⟩ := step_other P hi hu .tick hub hc (fun _ rest' h => by rw [hs] at h; cases h; exact hne rfl)
  have el : l0 = l := by rw [e1] at hl; exact List.append_cancel_left hl
  subst el
  by_cases hsim : a.simple = true
  · have ap := p1 (fun _ k' rest' st' h1 h2 => by
      rw [hs] at h1; cases h1; rw [hb] at h2; cases h2; rw [hpair]; exact .inl hsim)
    have kp := ap.keeps hpc (.inr (.inr ⟨g, k, hw⟩))
    have ho : outs g l0 = [] := by
      obtain ⟨l2, e2, o2⟩ := act_simple (({ s with fr := upd s.fr g { s.fr g with st := some b1, inp := .unit } } : State σ V E).emit (.ran g)) g a hsim
      rw [← hstep] at e2
      have : l0 = .ran g :: l2 := by
        rw [e1] at e2
        refine List.append_cancel_left (as := s.log) ?_
        rw [e2]; simp [State.emit]
      rw [this]
      have : outs g (.ran g :: l2) = outs g l2 := by simp [outs, out, List.filterMap_cons]
      rw [this, o2]
    refine .wait t vs zs k hR (by rw [kp.2.1]; exact hst) (by rw [kp.1]; exact hw) ?_ ?_ ?_
    · rw [outs_append, ho, hY]; simp
    · rw [outs_append, o1, hZ]; simp
    · rw [readsBy_append, r1, hrd]; simp
  · have hcf : (s.fr c).freed = false := by
      rw [hstep] at hub
      cases a <;> simp [Act.simple] at hsim <;>
      · simp [State.act, State.emit, State.transfer, hgen, hcons, upd_other _ _ hne] at hub
        cases hf : (s.fr c).freed with
        | false => rfl
        | true => rw [if_pos hf] at hub; simp [State.fail] at hub
    have cancel : ∀ m, (step P s .tick).log = s.log ++ m → l0 = m := fun m hm => by rw [e1] at hm; exact List.append_cancel_left hm
    have rdo : readsBy c g (n ++ l0) = vs := by rw [readsBy_append, r1, hrd]; simp
    have oco : outs c (n ++ l0) = zs.map .val := by rw [outs_append, o1, hZ]; simp
    cases a with
    | yield v =>
      cases k with
      | begin =>
        have hm : l0 = [.ran g, .yielded g v, .got g c s.ni] := cancel _ (by
          rw [hstep]; simp [State.act, State.emit, State.transfer, State.awaitResume, State.reply, hgen, hcons, upd_other _ _ hne, upd_other _ _ (Ne.symm hne), hcf, hw])
        refine .got t vs zs s.ni v hR ?_ (.inl ⟨?_, ?_⟩) ?_ ?_ ?_ ?_ oco rdo
        all_goals (try rw [hstep])
        all_goals try simp [State.act, State.emit, State.transfer, State.awaitResume, State.reply, hgen, hcons, upd_other _ _ hne, upd_other _ _ (Ne.symm hne), hcf, hw, hst]
        rw [outs_append, hY, hm]; simp [outs, out, List.filterMap_cons]
      | inc i =>
        have hit := hi.inc c g i hw
        have hm : l0 = [.ran g, .yielded g v, .got g c i] := cancel _ (by
          rw [hstep]; simp [State.act, State.emit, State.transfer, State.awaitResume, State.reply, hgen, hcons, upd_other _ _ hne, upd_other _ _ (Ne.symm hne), hcf, hw])
        refine .got t vs zs i v hR ?_ (.inl ⟨?_, ?_⟩) ?_ ?_ ?_ ?_ oco rdo
        all_goals (try rw [hstep])
        all_goals try simp [State.act, State.emit, State.transfer, State.awaitResume, State.reply, hgen, hcons, upd_other _ _ hne, upd_other _ _ (Ne.symm hne), hcf, hw, hst, hit]
        rw [outs_append, hY, hm]; simp [outs, out, List.filterMap_cons]
    | ret =>
      cases k with
      | begin =>
        have hm : l0 = [.ran g, .returned g, .gotEnd g c s.ni] := cancel _ (by
          rw [hstep]; simp [State.act, State.emit, State.transfer, State.awaitResume, State.reply, hgen, hcons, upd_other _ _ hne, upd_other _ _ (Ne.symm hne), hcf, hw, hex])
        refine .ended t vs zs s.ni hR ?_ ?_ ?_ ?_ ?_ ?_ oco rdo
        all_goals (try rw [hstep])
        all_goals try simp [State.act, State.emit, State.transfer, State.awaitResume, State.reply, hgen, hcons, upd_other _ _ hne, upd_other _ _ (Ne.symm hne), hcf, hw, hst, hex]
        rw [outs_append, hY, hm]; simp [outs, out, List.filterMap_cons]
      | inc i =>
        have hm : l0 = [.ran g, .returned g, .gotEnd g c i] := cancel _ (by
          rw [hstep]; simp [State.act, State.emit, State.transfer, State.awaitResume, State.reply, hgen, hcons, upd_other _ _ hne, upd_other _ _ (Ne.symm hne), hcf, hw, hex])
        refine .ended t vs zs i hR ?_ ?_ ?_ ?_ ?_ ?_ oco rdo
        all_goals (try rw [hstep])
        all_goals try simp [State.act, State.emit, State.transfer, State.awaitResume, State.reply, hgen, hcons, upd_other _ _ hne, upd_other _ _ (Ne.symm hne), hcf, hw, hst, hex]
        rw [outs_append, hY, hm]; simp [outs, out, List.filterMap_cons]
    | throw e =>
      cases k with
      | begin =>
        have hm : l0 = [.ran g, .raised g e, .gotExc g c .begin e] := cancel _ (by
          rw [hstep]; simp [State.act, State.emit, State.transfer, State.awaitResume, State.reply, hgen, hcons, upd_other _ _ hne, upd_other _ _ (Ne.symm hne), hcf, hw, hex])
        refine .tail t vs zs (some e) (K.fail t e) (S.head t) (.threw e) [] (K.fail t e).1 hR ⟨?_, .inl ⟨?_, ?_⟩⟩ (S.hFail t e) (by simp) (.inr ⟨e, rfl, rfl⟩) ?_ ?_ (by simpa using oco) rdo
        all_goals (try rw [hstep])
        all_goals try simp [State.act, State.emit, State.transfer, State.awaitResume, State.reply, hgen, hcons, upd_other _ _ hne, upd_other _ _ (Ne.symm hne), hcf, hw, hst, hex]
        rw [outs_append, hY, hm]; simp [outs, out, List.filterMap_cons]
      | inc i =>
        have hm : l0 = [.ran g, .raised g e, .gotExc g c (.inc i) e] := cancel _ (by
          rw [hstep]; simp [State.act, State.emit, State.transfer, State.awaitResume, State.reply, hgen, hcons, upd_other _ _ hne, upd_other _ _ (Ne.symm hne), hcf, hw, hex])
        refine .tail t vs zs (some e) (K.fail t e) (S.head t) (.threw e) [] (K.fail t e).1 hR ⟨?_, .inl ⟨?_, ?_⟩⟩ (S.hFail t e) (by simp) (.inr ⟨e, rfl, rfl⟩) ?_ ?_ (by simpa using oco) rdo
        all_goals (try rw [hstep])
        all_goals try simp [State.act, State.emit, State.transfer, State.awaitResume, State.reply, hgen, hcons, upd_other _ _ hne, upd_other _ _ (Ne.symm hne), hcf, hw, hst, hex]
        rw [outs_append, hY, hm]; simp [outs, out, List.filterMap_cons]
    | _ => simp [Act.simple] at hsim

theorem vals_map (vs : List V) : vals (vs.map .val : List (Out V E)) = vs := by
  induction vs with
  | nil => rfl
  | cons v vs ih => simp only [vals, List.map_cons, List.filterMap_cons] at ih ⊢; rw [ih]

theorem vals_append (a b : List (Out V E)) : vals (a ++ b) = vals a ++ vals b := by simp [vals]

theorem Stage.At.spec {P : Prog σ V E} {K : Stage τ V E} {S : IsStage P K} {c g : Nat} {t0 : τ} {s : State σ V E} {n : List (Ev V E)}
    (h : K.At P S c g t0 s n) :
    K.Through t0 (outs g n) (outs c n) ∧ (vals (outs g n) = readsBy c g n ∨ ∃ v, vals (outs g n) = readsBy c g n ++ [v]) ∧
    ((∃ f, .stop f ∈ outs g n ∨ .stop f ∈ outs c n) → vals (outs g n) = readsBy c g n) := by
  cases h with
  | wait t vs zs k h1 h2 h3 h4 h5 h6 =>
    refine ⟨?_, .inl (by rw [h4, h6, vals_map]), fun _ => by rw [h4, h6, vals_map]⟩
    have := h1.through (.wait t); rw [h4, h5]; simpa using this
  | got t vs zs i v h1 h2 h3 h4 h5 h6 h7 h8 h9 =>
    refine ⟨?_, .inr ⟨v, by rw [h7, h9, vals_map]⟩, ?_⟩
    · have := h1.through (.last t v [] (by simp)); rw [h7, h8]; simpa using this
    · rintro ⟨f, h | h⟩
      · rw [h7] at h; simp at h
      · rw [h8] at h; simp at h
  | body t vs zs i v st r done rest q h1 h2 h3 h4 h5 h6 h7 h8 h9 =>
    refine ⟨?_, .inl (by rw [h7, h9, vals_map]), fun _ => by rw [h7, h9, vals_map]⟩
    have := h1.through (.last t v (done.map .val) (by
      simp only [Stage.pass, h4, List.map_append, List.append_assoc]; exact List.prefix_append _ _))
    rw [h7, h8]; simpa using this
  | ended t vs zs i h1 h2 h3 h4 h5 h6 h7 h8 h9 =>
    have hv : vals (outs g n) = readsBy c g n := by rw [h7, h9, vals_append, vals_map]; simp [vals]
    refine ⟨?_, .inl hv, fun _ => hv⟩
    have := h1.through (.fin t [] (by simp)); rw [h7, h8]; simpa using this
  | tail t vs zs f w st r done rest h1 h2 h3 h4 h5 h6 h7 h8 h9 =>
    have hv : vals (outs g n) = readsBy c g n := by rw [h7, h9, vals_append, vals_map]; simp [vals]
    refine ⟨?_, .inl hv, fun _ => hv⟩
    have hp : done.map Out.val <+: stream w := by
      simp only [stream, h4, List.map_append, List.append_assoc]; exact List.prefix_append _ _
    rcases h5 with ⟨rfl, rfl⟩ | ⟨e, rfl, rfl⟩
    · have := h1.through (.fin t _ hp); rw [h7, h8]; simpa using this
    · have := h1.through (.fail t e _ hp); rw [h7, h8]; simpa using this
  | over h1 h2 h3 h4 => exact ⟨h3, .inl h4.symm, fun _ => h4.symm⟩

/-- The stage itself acts. -/
theorem at_own (P : Prog σ V E) (K : Stage τ V E) (S : IsStage P K) {c g : Nat} {t0 : τ} {s : State σ V E} {n l : List (Ev V E)}
    (hi : Inv s) (hu : s.ub = none) (hub : (step P s .tick).ub = none) (hg : g < s.nf) (hne : c ≠ g) {rest : List Nat} (hs : s.stack = c :: rest)
    (h : K.At P S c g t0 s n) (hl : (step P s .tick).log = s.log ++ l) (hpg : ∀ i v, Ev.poked i g v ∉ l) :
    K.At P S c g t0 (step P s .tick) (n ++ l) := by
  have hrun : (s.fr c).status = .running := (hi.cur c).2 (by simp [hs])
  obtain ⟨l0, e1, o1, r1, a1, p1⟩ := step_other P hi hu .tick hub hg (fun _ rest' h => by rw [hs] at h; cases h; exact hne rfl)
  have el : l0 = l := by rw [e1] at hl; exact List.append_cancel_left hl
  subst el
  have cancel : ∀ m, (step P s .tick).log = s.log ++ m → m = l0 := fun m hm => by rw [e1] at hm; exact (List.append_cancel_left hm).symm
  have itk : ∀ i h, (h = none ∨ h = some g) → s.it i = some h → (step P s .tick).it i = some h := by
    intro i h hh hit
    refine step_it P hi .tick hit ?_
    intro _ k rest' hs' e
    rw [hs] at hs'; cases hs'
    rcases hh with rfl | rfl
    · cases e
    · cases e; exact hne rfl
  have pg : (∀ k call, Ev.adv g k call ∉ l0) → ((s.fr g).status = .atYield ∨ (s.fr g).status = .done) →
      ((step P s .tick).fr g).status = (s.fr g).status ∧ ((step P s .tick).fr g).value = (s.fr g).value := by
    intro ha hst
    exact (p1 (fun _ k rest st _ _ => .inr (fun c => by rcases hst with h | h <;> simp [h]))).parked hpg hst ha
  have og : ∀ Y, outs g n = Y → outs g (n ++ l0) = Y := by intro Y h; rw [outs_append, o1, h]; simp
  have bye : ∀ {f : Option E}, ((step P s .tick).fr c).status = .done → ((step P s .tick).fr g).status = (s.fr g).status →
      ((s.fr g).status = .atYield ∨ (s.fr g).status = .done) → outs c l0 = [.stop f] → (∀ g, readsBy c g l0 = []) →
      K.Through t0 (outs g n) (outs c n ++ [.stop f]) ∧ readsBy c g n = vals (outs g n) → K.At P S c g t0 (step P s .tick) (n ++ l0) := by
    intro f d1 d2 d3 d4 d5 d6
    refine .over d1 (by rw [d2]; exact d3) ?_ ?_
    · rw [outs_append, outs_append, d4, o1]; simpa using d6.1
    · rw [readsBy_append, outs_append, d5, o1]; simpa using d6.2
  have fin_body : ∀ {t vs zs v done f}, K.Ran t0 vs t zs → K.body t v = (done ++ [], Sum.inr f) → outs g n = (vs ++ [v]).map .val →
      outs c n = (zs ++ done).map .val → readsBy c g n = vs ++ [v] →
      K.Through t0 (outs g n) (outs c n ++ [.stop f]) ∧ readsBy c g n = vals (outs g n) := by
    intro t vs zs v done f d1 d2 d3 d4 d5
    refine ⟨?_, by rw [d3, d5, vals_map]⟩
    have := d1.through (.last t v (done.map .val ++ [.stop f]) (by simp [Stage.pass, d2]))
    rw [d3, d4]; simpa using this
  have fin_tail : ∀ {t vs zs f done fw} {w : List V × Option E}, K.Ran t0 vs t zs → w.1 = done → w.2 = fw →
      (f = none ∧ w = K.fin t ∨ ∃ e, f = some e ∧ w = K.fail t e) → outs g n = vs.map .val ++ [.stop f] → outs c n = (zs ++ done).map .val →
      readsBy c g n = vs → K.Through t0 (outs g n) (outs c n ++ [.stop fw]) ∧ readsBy c g n = vals (outs g n) := by
    intro t vs zs f done fw w d1 d2 d3 d4 d5 d6 d7
    refine ⟨?_, by rw [d5, d7, vals_append, vals_map]; simp [vals]⟩
    have hp : done.map Out.val ++ [.stop fw] <+: stream w := by simp [stream, d2, d3]
    rcases d4 with ⟨rfl, rfl⟩ | ⟨e, rfl, rfl⟩
    · have := d1.through (.fin t _ hp); rw [d5, d6]; simpa using this
    · have := d1.through (.fail t e _ hp); rw [d5, d6]; simpa using this
  cases h with
  | wait t vs zs k h1 h2 h3 => rw [hrun] at h3; cases h3
  | over h1 => rw [hrun] at h1; cases h1
  | got t vs zs i v h1 h2 h3 h4 h5 h6 h7 h8 h9 =>
    rcases h3 with ⟨h3, h3'⟩ | ⟨h3, h3'⟩
    · have hst := step_tick P hu hs h3 h3' (S.hTest t i)
      have hm := cancel [.ran c, .tested i false] (by rw [hst]; simp [State.act, State.emit, State.reply, h4])
      subst hm
      have kg := pg (by simp) (.inl h5)
      refine .got t vs zs i v h1 ?_ (.inr ⟨?_, ?_⟩) (itk i _ (.inr rfl) h4) (by rw [kg.1]; exact h5) (by rw [kg.2]; exact h6) (og _ h7) ?_ ?_
      · rw [hst]; simp [State.act, State.emit, State.reply, h4, hrun]
      · rw [hst]; simp [State.act, State.emit, State.reply, h4, hrun]
      · rw [hst]; simp [State.act, State.emit, State.reply, h4, hrun]
      · rw [outs_append, h8]; simp [outs, out, List.filterMap_cons]
      · rw [readsBy_append, h9]; simp [readsBy]
    · have hst := step_tick P hu hs h3 h3' (S.hRead t i)
      have hgf : (s.fr g).freed = false := by
        cases hf : (s.fr g).freed with
        | false => rfl
        | true => rw [hst] at hub; simp [State.act, State.emit, State.fail, h4, upd_other _ _ (Ne.symm hne), hf] at hub
      have hm := cancel [.ran c, .read c g i v] (by rw [hst]; simp [State.act, State.emit, State.reply, h4, upd_other _ _ (Ne.symm hne), hgf, h5, h6])
      subst hm
      have kg := pg (by simp) (.inl h5)
      refine .body t vs zs i v (S.read t i) (.val v) [] (K.body t v).1 (K.body t v).2 h1 ⟨?_, .inl ⟨?_, ?_⟩⟩ (S.hBody t i v) (by simp) (itk i _ (.inr rfl) h4)
        (by rw [kg.1]; exact h5) (og _ h7) ?_ ?_
      · rw [hst]; simp [State.act, State.emit, State.reply, h4, upd_other _ _ (Ne.symm hne), hgf, h5, h6, hrun]
      · rw [hst]; simp [State.act, State.emit, State.reply, h4, upd_other _ _ (Ne.symm hne), hgf, h5, h6, hrun]
      · rw [hst]; simp [State.act, State.emit, State.reply, h4, upd_other _ _ (Ne.symm hne), hgf, h5, h6, hrun]
      · rw [outs_append, h8]; simp [outs, out, List.filterMap_cons]
      · rw [readsBy_append, h9]; simp [readsBy, List.filterMap_cons]
  | ended t vs zs i h1 h2 h3 h4 h5 h6 h7 h8 h9 =>
    have hst := step_tick P hu hs h3 h4 (S.hTest t i)
    have hm := cancel [.ran c, .tested i true] (by rw [hst]; simp [State.act, State.emit, State.reply, h5])
    subst hm
    have kg := pg (by simp) (.inr h6)
    refine .tail t vs zs none (K.fin t) (S.test t i) (.flag true) [] (K.fin t).1 h1 ⟨?_, .inl ⟨?_, ?_⟩⟩ (S.hFin t i) (by simp) (.inl ⟨rfl, rfl⟩)
      (by rw [kg.1]; exact h6) (og _ h7) ?_ ?_
    · rw [hst]; simp [State.act, State.emit, State.reply, h5, hrun]
    · rw [hst]; simp [State.act, State.emit, State.reply, h5, hrun]
    · rw [hst]; simp [State.act, State.emit, State.reply, h5, hrun]
    · rw [outs_append, h8]; simp [outs, out, List.filterMap_cons]
    · rw [readsBy_append, h9]; simp [readsBy]
  | body t vs zs i v st r done rs q h1 h2 h3 h4 h5 h6 h7 h8 h9 =>
    have hr := h2.running hrun
    obtain ⟨q', hq⟩ : ∃ q', (match q with | .inl t' => Sum.inl (S.head t') | .inr f => Sum.inr f : σ ⊕ Option E) = q' := ⟨_, rfl⟩
    rw [hq] at h3
    cases h3 with
    | @work _ _ c' m _ _ hn hB =>
      have hst := step_tick P hu hs h2.1 hr hn
      have hm := cancel [.ran c, .work c m] (by rw [hst]; simp [State.act, State.emit, State.reply])
      subst hm
      have kg := pg (by simp) (.inl h6)
      refine .body t vs zs i v c' .unit done rs q h1 ⟨?_, .inl ⟨?_, ?_⟩⟩ (hq ▸ hB) h4 (itk i _ (.inr rfl) h5) (by rw [kg.1]; exact h6) (og _ h7) ?_ ?_
      · rw [hst]; simp [State.act, State.emit, State.reply]
      · rw [hst]; simp [State.act, State.emit, State.reply, hrun]
      · rw [hst]; simp [State.act, State.emit, State.reply]
      · rw [outs_append, h8]; simp [outs, out, List.filterMap_cons]
      · rw [readsBy_append, h9]; simp [readsBy]
    | @await _ _ c' _ _ hn hB =>
      have hst := step_tick P hu hs h2.1 hr hn
      have hm := cancel [.ran c, .suspended c] (by rw [hst]; simp [State.act, State.emit, State.reply])
      subst hm
      have kg := pg (by simp) (.inl h6)
      refine .body t vs zs i v c' .unit done rs q h1 ⟨?_, .inr (.inl ⟨?_, rfl⟩)⟩ (hq ▸ hB) h4 (itk i _ (.inr rfl) h5) (by rw [kg.1]; exact h6) (og _ h7) ?_ ?_
      · rw [hst]; simp [State.act, State.emit, State.reply]
      · rw [hst]; simp [State.act, State.emit, State.reply, hrun]
      · rw [outs_append, h8]; simp [outs, out, List.filterMap_cons]
      · rw [readsBy_append, h9]; simp [readsBy]
    | @yield _ _ c' w ws _ hn hB =>
      obtain ⟨m, m1, m2, m3, m4, m5, m6, m7⟩ := own_yield P hu hs h2.1 hr hn hub
      have hm := cancel m m1
      subst hm
      have kg := pg (m7 g) (.inl h6)
      refine .body t vs zs i v c' (.resumed w) (done ++ [w]) ws q h1 ⟨m4, .inr (.inr (.inr ⟨m5, w, m6, rfl⟩))⟩ (hq ▸ hB) (by rw [h4]; simp) (itk i _ (.inr rfl) h5)
        (by rw [kg.1]; exact h6) (og _ h7) ?_ ?_
      · rw [outs_append, h8, m2]; simp
      · rw [readsBy_append, h9, m3]; simp
    | @next _ _ c' hn =>
      cases q with
      | inr f => simp at hq
      | inl t' =>
        simp at hq
        subst hq
        have hst := step_tick P hu hs h2.1 hr hn
        have hgf : (s.fr g).freed = false := by
          cases hf : (s.fr g).freed with
          | false => rfl
          | true => rw [hst] at hub; simp [State.act, State.advance, State.emit, State.fail, h5, upd_other _ _ (Ne.symm hne), hf] at hub
        have hm := cancel [.ran c, .adv g c (.inc i)] (by rw [hst]; simp [State.act, State.advance, State.emit, State.reply, h5, upd_other _ _ (Ne.symm hne), hgf, h6])
        subst hm
        have hR := h1.snoc (v := v) (t'' := t') (by rw [h4])
        rw [h4] at hR
        refine .wait t' (vs ++ [v]) (zs ++ (done ++ [])) (.inc i) hR ?_ ?_ (og _ h7) ?_ ?_
        · rw [hst]; simp [State.act, State.advance, State.emit, State.reply, h5, upd_other _ _ (Ne.symm hne), upd_other _ _ hne, hgf, h6]
        · rw [hst]; simp [State.act, State.advance, State.emit, State.reply, h5, upd_other _ _ (Ne.symm hne), upd_other _ _ hne, hgf, h6]
        · rw [outs_append, h8]; simp [outs, out, List.filterMap_cons]
        · rw [readsBy_append, h9]; simp [readsBy]
    | @ret _ _ c' hn =>
      cases q with
      | inl t' => simp at hq
      | inr f =>
        simp at hq
        subst hq
        obtain ⟨m, m1, m2, m3, m4, m5⟩ := own_end P hu (.inl ⟨rfl, rfl⟩) hs h2.1 hr hn hub
        have hm := cancel m m1
        subst hm
        exact bye m4 (pg (m5 g) (.inl h6)).1 (.inl h6) m2 m3 (fin_body h1 h4 h7 h8 h9)
    | @throw _ _ c' e hn =>
      cases q with
      | inl t' => simp at hq
      | inr f =>
        simp at hq
        subst hq
        obtain ⟨m, m1, m2, m3, m4, m5⟩ := own_end P hu (.inr ⟨e, rfl, rfl⟩) hs h2.1 hr hn hub
        have hm := cancel m m1
        subst hm
        exact bye m4 (pg (m5 g) (.inl h6)).1 (.inl h6) m2 m3 (fin_body h1 h4 h7 h8 h9)
  | tail t vs zs f w st r done rs h1 h2 h3 h4 h5 h6 h7 h8 h9 =>
    have hr := h2.running hrun
    obtain ⟨fw, hfw⟩ : ∃ fw, w.2 = fw := ⟨_, rfl⟩
    rw [hfw] at h3
    cases h3 with
    | @work _ _ c' m _ _ hn hB =>
      have hst := step_tick P hu hs h2.1 hr hn
      have hm := cancel [.ran c, .work c m] (by rw [hst]; simp [State.act, State.emit, State.reply])
      subst hm
      have kg := pg (by simp) (.inr h6)
      refine .tail t vs zs f w c' .unit done rs h1 ⟨?_, .inl ⟨?_, ?_⟩⟩ (hfw ▸ hB) h4 h5 (by rw [kg.1]; exact h6) (og _ h7) ?_ ?_
      · rw [hst]; simp [State.act, State.emit, State.reply]
      · rw [hst]; simp [State.act, State.emit, State.reply, hrun]
      · rw [hst]; simp [State.act, State.emit, State.reply]
      · rw [outs_append, h8]; simp [outs, out, List.filterMap_cons]
      · rw [readsBy_append, h9]; simp [readsBy]
    | @await _ _ c' _ _ hn hB =>
      have hst := step_tick P hu hs h2.1 hr hn
      have hm := cancel [.ran c, .suspended c] (by rw [hst]; simp [State.act, State.emit, State.reply])
      subst hm
      have kg := pg (by simp) (.inr h6)
      refine .tail t vs zs f w c' .unit done rs h1 ⟨?_, .inr (.inl ⟨?_, rfl⟩)⟩ (hfw ▸ hB) h4 h5 (by rw [kg.1]; exact h6) (og _ h7) ?_ ?_
      · rw [hst]; simp [State.act, State.emit, State.reply]
      · rw [hst]; simp [State.act, State.emit, State.reply, hrun]
      · rw [outs_append, h8]; simp [outs, out, List.filterMap_cons]
      · rw [readsBy_append, h9]; simp [readsBy]
    | @yield _ _ c' x ws _ hn hB =>
      obtain ⟨m, m1, m2, m3, m4, m5, m6, m7⟩ := own_yield P hu hs h2.1 hr hn hub
      have hm := cancel m m1
      subst hm
      have kg := pg (m7 g) (.inr h6)
      refine .tail t vs zs f w c' (.resumed x) (done ++ [x]) ws h1 ⟨m4, .inr (.inr (.inr ⟨m5, x, m6, rfl⟩))⟩ (hfw ▸ hB) (by rw [h4]; simp) h5
        (by rw [kg.1]; exact h6) (og _ h7) ?_ ?_
      · rw [outs_append, h8, m2]; simp
      · rw [readsBy_append, h9, m3]; simp
    | @ret _ _ c' hn =>
      obtain ⟨m, m1, m2, m3, m4, m5⟩ := own_end P hu (.inl ⟨rfl, rfl⟩) hs h2.1 hr hn hub
      have hm := cancel m m1
      subst hm
      exact bye m4 (pg (m5 g) (.inr h6)).1 (.inr h6) m2 m3 (fin_tail h1 (by simpa using h4) hfw h5 h7 h8 h9)
    | @throw _ _ c' e hn =>
      obtain ⟨m, m1, m2, m3, m4, m5⟩ := own_end P hu (.inr ⟨e, rfl, rfl⟩) hs h2.1 hr hn hub
      have hm := cancel m m1
      subst hm
      exact bye m4 (pg (m5 g) (.inr h6)).1 (.inr h6) m2 m3 (fin_tail h1 (by simpa using h4) hfw h5 h7 h8 h9)

theorem step_ub_none (P : Prog σ V E) (s : State σ V E) (op : Op σ) (h : (step P s op).ub = none) : s.ub = none := by
  cases hu : s.ub with
  | none => rfl
  | some u => simp [step, hu] at h

theorem step_log (P : Prog σ V E) {s : State σ V E} (hi : Inv s) (op : Op σ) (h : (step P s op).ub = none) : ∃ l, (step P s op).log = s.log ++ l := by
  have hu := step_ub_none P s op h
  cases op with
  | spawn b => exact ⟨[.spawned s.nf], by simp [step, hu, State.emit]⟩
  | ext c =>
    simp only [step, hu, Option.isSome, Bool.false_eq_true, if_false]
    repeat' split
    · exact ⟨[], by simp [State.fail]⟩
    · exact ⟨[.resumed c], by simp [State.emit]⟩
    · exact ⟨[], by simp⟩
  | tick =>
    cases hs : s.stack with
    | nil => exact ⟨[], by simp [step, hu, hs]⟩
    | cons k rest =>
      have hrun : (s.fr k).status = .running := (hi.cur k).2 (by simp [hs])
      obtain ⟨st, hst⟩ := Option.isSome_iff_exists.1 ((hi.wf k).st (by simp [hrun]))
      have hpair : P.next st (s.fr k).inp = ((P.next st (s.fr k).inp).1, (P.next st (s.fr k).inp).2) := rfl
      generalize (P.next st (s.fr k).inp).1 = b1 at hpair
      generalize (P.next st (s.fr k).inp).2 = a at hpair
      have e := step_tick P hu hs hst rfl hpair
      by_cases ha : a.simple = true
      · obtain ⟨l, hl, _⟩ := act_simple (({ s with fr := upd s.fr k { s.fr k with st := some b1, inp := .unit } } : State σ V E).emit (.ran k)) k a ha
        exact ⟨.ran k :: l, by rw [e, hl]; simp [State.emit]⟩
      · cases a with
        | yield v => obtain ⟨l, hl, _⟩ := own_yield P hu hs hst rfl hpair h; exact ⟨l, hl⟩
        | ret => obtain ⟨l, hl, _⟩ := own_end P hu (.inl ⟨rfl, rfl⟩) hs hst rfl hpair h; exact ⟨l, hl⟩
        | throw e => obtain ⟨l, hl, _⟩ := own_end P hu (.inr ⟨_, rfl, rfl⟩) hs hst rfl hpair h; exact ⟨l, hl⟩
        | _ => simp [Act.simple] at ha

theorem at_step (P : Prog σ V E) (K : Stage τ V E) (S : IsStage P K) {c g : Nat} {t0 : τ} {s : State σ V E} {n l : List (Ev V E)} (op : Op σ)
    (hi : Inv s) (hub : (step P s op).ub = none) (hc : c < s.nf) (hg : g < s.nf) (hne : c ≠ g)
    (h : K.At P S c g t0 s n) (hl : (step P s op).log = s.log ++ l)
    (hal : ∀ k call, Ev.adv g k call ∈ l → k = c) (hpg : ∀ i v, Ev.poked i g v ∉ l) (hpc : ∀ i v, Ev.poked i c v ∉ l) :
    K.At P S c g t0 (step P s op) (n ++ l) := by
  have hu := step_ub_none P s op hub
  by_cases h1 : op = .tick ∧ ∃ rest, s.stack = c :: rest
  · obtain ⟨rfl, rest, hs⟩ := h1
    exact at_own P K S hi hu hub hg hne hs h hl hpg
  · by_cases h2 : op = .tick ∧ (∃ rest, s.stack = g :: rest) ∧ ∃ k, (s.fr c).status = .waitGen g k
    · obtain ⟨rfl, ⟨rest, hs⟩, k, hw⟩ := h2
      cases h with
      | wait t vs zs k' e1 e2 e3 e4 e5 e6 => exact at_source P K S hi hu hub hc hne hs e1 e2 e3 e4 e5 e6 hl hpc
      | got t vs zs i v e1 e2 => rw [hw] at e2; cases e2
      | body t vs zs i v st r done rs q e1 e2 => exact absurd hw (e2.notWait _ _)
      | ended t vs zs i e1 e2 => rw [hw] at e2; cases e2
      | tail t vs zs f w st r done rs e1 e2 => exact absurd hw (e2.notWait _ _)
      | over e1 => rw [hw] at e1; cases e1
    · exact at_other P K S op hi hu hub hc hg h hl (fun e rest hs => h1 ⟨e, rest, hs⟩) (fun e rest hs k hk => h2 ⟨e, ⟨rest, hs⟩, k, hk⟩) hal hpg hpc

theorem exec_ub_prefix (P : Prog σ V E) (a b : List (Op σ)) (h : (exec P (a ++ b)).ub = none) : (exec P a).ub = none := by
  induction b using snocInd with
  | nil => simpa using h
  | snoc b op ih =>
    rw [← List.append_assoc, exec_snoc] at h
    exact ih (step_ub_none P _ _ h)

theorem exec_log_prefix (P : Prog σ V E) (a b : List (Op σ)) (h : (exec P (a ++ b)).ub = none) : ∃ l, (exec P (a ++ b)).log = (exec P a).log ++ l := by
  induction b using snocInd with
  | nil => exact ⟨[], by simp⟩
  | snoc b op ih =>
    rw [← List.append_assoc] at h
    have h' := exec_ub_prefix P _ _ h
    obtain ⟨l, hl⟩ := ih h'
    rw [exec_snoc] at h
    obtain ⟨m, hm⟩ := step_log P ((good_exec P (a ++ b)).inv h') op h
    exact ⟨l ++ m, by rw [← List.append_assoc, exec_snoc, hm, hl, List.append_assoc]⟩

/-- The loop starts: `c` calls begin() of an object that holds `g`. -/
theorem at_start (P : Prog σ V E) (K : Stage τ V E) (S : IsStage P K) {c g o : Nat} {t : τ} {s : State σ V E} {l : List (Ev V E)} {rest : List Nat} {st : σ}
    (hi : Inv s) (hub : (step P s .tick).ub = none) (hs : s.stack = c :: rest) (hst : (s.fr c).st = some st)
    (hn : P.next st (s.fr c).inp = (S.head t, .begin o)) (ho : s.obj o = .live (some g)) (hl : (step P s .tick).log = s.log ++ l) :
    c ≠ g ∧ K.At P S c g t (step P s .tick) l := by
  have hu := step_ub_none P s .tick hub
  have e := step_tick P hu hs hst rfl hn
  have hrun : (s.fr c).status = .running := (hi.cur c).2 (by simp [hs])
  have hne : c ≠ g := by
    rintro rfl
    have hf := (hi.wf c).run hrun
    rw [e] at hub
    simp [State.act, State.emit, ho, State.advance, hf, hrun, State.fail] at hub
  have hgf := (hi.own o g ho).1
  rw [e] at hub hl ⊢
  simp only [State.act, State.emit, ho, State.advance, upd_other _ _ (Ne.symm hne), hgf, Bool.false_eq_true, if_false] at hub hl ⊢
  split at hub
  · rename_i hw
    simp only [hw] at hl ⊢
    have : l = [.ran c, .adv g c .begin] := by
      refine List.append_cancel_left (as := s.log) ?_
      rw [← hl]; simp
    subst this
    refine ⟨hne, .wait t [] [] .begin (.nil t) ?_ ?_ ?_ ?_ ?_⟩
    all_goals simp [upd_other _ _ hne, outs, out, readsBy, List.filterMap_cons]
  · rename_i hw
    simp only [hw] at hl ⊢
    have : l = [.ran c, .adv g c .begin] := by
      refine List.append_cancel_left (as := s.log) ?_
      rw [← hl]; simp
    subst this
    refine ⟨hne, .wait t [] [] .begin (.nil t) ?_ ?_ ?_ ?_ ?_⟩
    all_goals simp [upd_other _ _ hne, outs, out, readsBy, List.filterMap_cons]
  · simp [State.fail] at hub
  · simp [State.fail] at hub
  · simp [State.fail] at hub

theorem at_exec (P : Prog σ V E) (K : Stage τ V E) (S : IsStage P K) (ops0 ops1 : List (Op σ)) (c g o : Nat) (t : τ) (st : σ) (rest : List Nat)
    (new : List (Ev V E)) (hu : (exec P (ops0 ++ .tick :: ops1)).ub = none) (hs : (exec P ops0).stack = c :: rest)
    (hst : ((exec P ops0).fr c).st = some st) (hn : P.next st ((exec P ops0).fr c).inp = (S.head t, .begin o))
    (ho : (exec P ops0).obj o = .live (some g)) (hlog : (exec P (ops0 ++ .tick :: ops1)).log = (exec P ops0).log ++ new)
    (hal : ∀ k call, Ev.adv g k call ∈ new → k = c) (hpg : ∀ i v, Ev.poked i g v ∉ new) (hpc : ∀ i v, Ev.poked i c v ∉ new) :
    c ≠ g ∧ c < (exec P (ops0 ++ .tick :: ops1)).nf ∧ g < (exec P (ops0 ++ .tick :: ops1)).nf ∧ K.At P S c g t (exec P (ops0 ++ .tick :: ops1)) new := by
  induction ops1 using snocInd generalizing new with
  | nil =>
    rw [exec_snoc] at hu hlog ⊢
    have hi := (good_exec P ops0).inv (step_ub_none P _ _ hu)
    have hc : c < (exec P ops0).nf := (hi.born c).2 (by rw [(hi.cur c).2 (by simp [hs])]; simp)
    have hg : g < (exec P ops0).nf := (hi.born g).2 (hi.own o g ho).2.1
    have h := at_start P K S hi hu hs hst hn ho hlog
    have hnf := step_nf P (exec P ops0) .tick
    exact ⟨h.1, by omega, by omega, h.2⟩
  | snoc ops op ih =>
    have e : exec P (ops0 ++ .tick :: (ops ++ [op])) = step P (exec P (ops0 ++ .tick :: ops)) op := by
      rw [← exec_snoc]; simp
    rw [e] at hu hlog ⊢
    have hu' := step_ub_none P _ _ hu
    have hi := (good_exec P (ops0 ++ .tick :: ops)).inv hu'
    obtain ⟨l1, h1⟩ := exec_log_prefix P ops0 (.tick :: ops) hu'
    obtain ⟨l2, h2⟩ := step_log P hi op hu
    have hnew : new = l1 ++ l2 := by
      rw [h2, h1, List.append_assoc] at hlog
      exact (List.append_cancel_left hlog).symm
    subst hnew
    obtain ⟨a1, a2, a3, a4⟩ := ih l1 hu' h1 (fun k call hm => hal k call (by simp [hm])) (fun i v hm => hpg i v (by simp [hm])) (fun i v hm => hpc i v (by simp [hm]))
    have hnf := step_nf P (exec P (ops0 ++ .tick :: ops)) op
    exact ⟨a1, by omega, by omega, at_step P K S op hi hu a2 a3 a1 a4 h2 (fun k call hm => hal k call (by simp [hm])) (fun i v hm => hpg i v (by simp [hm])) (fun i v hm => hpc i v (by simp [hm]))⟩

/-- C75. A stage of a pipeline.  In an arbitrary history, beside arbitrary other coroutines, coroutine `c` calls begin() of an object that holds
generator `g`, in code that computes `K`; nobody else advances `g`, and nobody writes through iterators of `g` or of `c`.  Then from there on:
what `c` puts out is what the loop makes of what `g` puts out, and `g` never gets ahead of it; `c` has read exactly the values `g` co_yielded, in
order, each once – all but possibly the last, which it is about to read; and all of them once `g` or `c` has ended. -/
theorem C75_stage (P : Prog σ V E) (K : Stage τ V E) (S : IsStage P K) (ops0 ops1 : List (Op σ)) (c g o : Nat) (t : τ) (st : σ) (rest : List Nat)
    (new : List (Ev V E)) (hu : (exec P (ops0 ++ .tick :: ops1)).ub = none) (hs : (exec P ops0).stack = c :: rest)
    (hst : ((exec P ops0).fr c).st = some st) (hn : P.next st ((exec P ops0).fr c).inp = (S.head t, .begin o))
    (ho : (exec P ops0).obj o = .live (some g)) (hlog : (exec P (ops0 ++ .tick :: ops1)).log = (exec P ops0).log ++ new)
    (hal : ∀ k call, Ev.adv g k call ∈ new → k = c) (hpg : ∀ i v, Ev.poked i g v ∉ new) (hpc : ∀ i v, Ev.poked i c v ∉ new) :
    K.Through t (outs g new) (outs c new) ∧
    (vals (outs g new) = readsBy c g new ∨ ∃ v, vals (outs g new) = readsBy c g new ++ [v]) ∧
    ((∃ f, .stop f ∈ outs g new ∨ .stop f ∈ outs c new) → vals (outs g new) = readsBy c g new) :=
  (at_exec P K S ops0 ops1 c g o t st rest new hu hs hst hn ho hlog hal hpg hpc).2.2.2.spec

/-! ### Sources and whole pipelines -/

/-- What the code at state `c`, told `r`, can have put out so far, if it only works, co_awaits, co_yields and ends – it need never end.
Specification of user code, no counterpart in /repo. -/
inductive Behaves (P : Prog σ V E) : σ → Resp V E → List (Out V E) → Prop
  | now (c r) : Behaves P c r []
  | work {c r c' n l} : P.next c r = (c', .work n) → Behaves P c' .unit l → Behaves P c r l
  | await {c r c' l} : P.next c r = (c', .awaitExt) → Behaves P c' .unit l → Behaves P c r l
  | yield {c r c' v l} : P.next c r = (c', .yield v) → Behaves P c' (.resumed v) l → Behaves P c r (.val v :: l)
  | ret {c r c'} : P.next c r = (c', .ret) → Behaves P c r [.stop none]
  | throw {c r c' e} : P.next c r = (c', .throw e) → Behaves P c r [.stop (some e)]

/-- `Q` describes code that only works, co_awaits, co_yields and ends. Specification of user code, no counterpart in /repo. -/
def Leaf (P : Prog σ V E) (Q : σ → Resp V E → Prop) : Prop :=
  ∀ c r, Q c r → (∃ c' n, P.next c r = (c', .work n) ∧ Q c' .unit) ∨ (∃ c', P.next c r = (c', .awaitExt) ∧ Q c' .unit) ∨
    (∃ c' v, P.next c r = (c', .yield v) ∧ Q c' (.resumed v)) ∨ (∃ c', P.next c r = (c', .ret)) ∨ ∃ c' e, P.next c r = (c', .throw e)

/-- The code from `b`, told `r0`, has put out `l` and is now at `c`, told `r`. -/
inductive Reach (P : Prog σ V E) (b : σ) (r0 : Resp V E) : List (Out V E) → σ → Resp V E → Prop
  | here : Reach P b r0 [] b r0
  | work {l c r c' n} : Reach P b r0 l c r → P.next c r = (c', .work n) → Reach P b r0 l c' .unit
  | await {l c r c'} : Reach P b r0 l c r → P.next c r = (c', .awaitExt) → Reach P b r0 l c' .unit
  | yield {l c r c' v} : Reach P b r0 l c r → P.next c r = (c', .yield v) → Reach P b r0 (l ++ [.val v]) c' (.resumed v)

theorem Reach.behaves {P : Prog σ V E} {b : σ} {r0 : Resp V E} {l : List (Out V E)} {c : σ} {r : Resp V E} (h : Reach P b r0 l c r)
    {m : List (Out V E)} (hm : Behaves P c r m) : Behaves P b r0 (l ++ m) := by
  induction h generalizing m with
  | here => exact hm
  | work _ hn ih => exact ih (.work hn hm)
  | await _ hn ih => exact ih (.await hn hm)
  | yield _ hn ih => rw [List.append_assoc]; exact ih (.yield hn hm)

/-- Where the code of a source can be. -/
def LeafAt (P : Prog σ V E) (Q : σ → Resp V E → Prop) (b : σ) (r0 : Resp V E) (x : Nat) (s : State σ V E) (n : List (Ev V E)) : Prop :=
  (∃ st r, Ctl (s.fr x) st r ∧ Q st r ∧ Reach P b r0 (outs x n) st r) ∨ (s.fr x).status = .done ∧ Behaves P b r0 (outs x n)

theorem leaf_step (P : Prog σ V E) {Q : σ → Resp V E → Prop} (hQ : Leaf P Q) {b : σ} {r0 : Resp V E} {x : Nat} {s : State σ V E} {n l : List (Ev V E)} (op : Op σ)
    (hi : Inv s) (hub : (step P s op).ub = none) (hx : x < s.nf) (h : LeafAt P Q b r0 x s n) (hl : (step P s op).log = s.log ++ l)
    (hp : ∀ i v, Ev.poked i x v ∉ l) : LeafAt P Q b r0 x (step P s op) (n ++ l) := by
  have hu := step_ub_none P s op hub
  by_cases h1 : op = .tick ∧ ∃ rest, s.stack = x :: rest
  · obtain ⟨rfl, rest, hs⟩ := h1
    have hrun : (s.fr x).status = .running := (hi.cur x).2 (by simp [hs])
    have cancel : ∀ m, (step P s .tick).log = s.log ++ m → m = l := fun m hm => by rw [hl] at hm; exact (List.append_cancel_left hm).symm
    rcases h with ⟨st, r, hc, hq, hR⟩ | ⟨hd, _⟩
    · have hr := hc.running hrun
      rcases hQ st r hq with ⟨c', m, hn, hq'⟩ | ⟨c', hn, hq'⟩ | ⟨c', v, hn, hq'⟩ | ⟨c', hn⟩ | ⟨c', e, hn⟩
      · have hst := step_tick P hu hs hc.1 hr hn
        have hm := cancel [.ran x, .work x m] (by rw [hst]; simp [State.act, State.emit, State.reply])
        subst hm
        refine .inl ⟨c', .unit, ⟨?_, .inl ⟨?_, ?_⟩⟩, hq', ?_⟩
        · rw [hst]; simp [State.act, State.emit, State.reply]
        · rw [hst]; simp [State.act, State.emit, State.reply, hrun]
        · rw [hst]; simp [State.act, State.emit, State.reply]
        · rw [outs_append]; simpa [outs, out, List.filterMap_cons] using hR.work hn
      · have hst := step_tick P hu hs hc.1 hr hn
        have hm := cancel [.ran x, .suspended x] (by rw [hst]; simp [State.act, State.emit, State.reply])
        subst hm
        refine .inl ⟨c', .unit, ⟨?_, .inr (.inl ⟨?_, rfl⟩)⟩, hq', ?_⟩
        · rw [hst]; simp [State.act, State.emit, State.reply]
        · rw [hst]; simp [State.act, State.emit, State.reply, hrun]
        · rw [outs_append]; simpa [outs, out, List.filterMap_cons] using hR.await hn
      · obtain ⟨m, m1, m2, m3, m4, m5, m6, m7⟩ := own_yield P hu hs hc.1 hr hn hub
        have hm := cancel m m1
        subst hm
        refine .inl ⟨c', .resumed v, ⟨m4, .inr (.inr (.inr ⟨m5, v, m6, rfl⟩))⟩, hq', ?_⟩
        rw [outs_append, m2]; exact hR.yield hn
      · obtain ⟨m, m1, m2, m3, m4, m5⟩ := own_end P hu (.inl ⟨rfl, rfl⟩) hs hc.1 hr hn hub
        have hm := cancel m m1
        subst hm
        exact .inr ⟨m4, by rw [outs_append, m2]; exact hR.behaves (.ret hn)⟩
      · obtain ⟨m, m1, m2, m3, m4, m5⟩ := own_end P hu (.inr ⟨e, rfl, rfl⟩) hs hc.1 hr hn hub
        have hm := cancel m m1
        subst hm
        exact .inr ⟨m4, by rw [outs_append, m2]; exact hR.behaves (.throw hn)⟩
    · rw [hrun] at hd; cases hd
  · obtain ⟨l', e1, o1, r1, a1, p1⟩ := step_other P hi hu op hub hx (fun e rest hs => h1 ⟨e, rest, hs⟩)
    have el : l' = l := by rw [e1] at hl; exact List.append_cancel_left hl
    subst el
    rcases h with ⟨st, r, hc, hq, hR⟩ | ⟨hd, hB⟩
    · have ap := p1 (fun _ k' rest st hs _ => .inr (fun c' => hc.notWait _ _))
      exact .inl ⟨st, r, hc.apart ap hp, hq, by rw [outs_append, o1]; simpa using hR⟩
    · have ap := p1 (fun _ k' rest st hs _ => .inr (fun c' => by simp [hd]))
      exact .inr ⟨by rw [(ap.keeps hp (.inr (.inl hd))).1]; exact hd, by rw [outs_append, o1]; simpa using hB⟩

/-- C75. A source.  Once generator `x` with body `b` exists (not started), what it puts out, in an arbitrary history beside arbitrary other
coroutines, is what its code says – also if it never ends –, provided that nobody writes through its iterators. -/
theorem C75_source (P : Prog σ V E) (Q : σ → Resp V E → Prop) (hQ : Leaf P Q) (ops0 ops1 : List (Op σ)) (x : Nat) (b : σ) (new : List (Ev V E))
    (hu : (exec P (ops0 ++ ops1)).ub = none) (hst : ((exec P ops0).fr x).st = some b) (hs : ((exec P ops0).fr x).status = .initial)
    (hb : Q b .start) (hlog : (exec P (ops0 ++ ops1)).log = (exec P ops0).log ++ new) (hp : ∀ i v, Ev.poked i x v ∉ new) :
    Behaves P b .start (outs x new) := by
  have key : LeafAt P Q b .start x (exec P (ops0 ++ ops1)) new ∧ x < (exec P (ops0 ++ ops1)).nf := by
    induction ops1 using snocInd generalizing new with
    | nil =>
      have : new = [] := by simpa using hlog
      subst this
      simp only [List.append_nil] at hu ⊢
      have hi := (good_exec P ops0).inv hu
      exact ⟨.inl ⟨b, .start, ⟨hst, .inr (.inr (.inl ⟨hs, ((hi.wf x).ini hs).2.1, rfl⟩))⟩, hb, .here⟩, (hi.born x).2 (by simp [hs])⟩
    | snoc ops op ih =>
      have e : exec P (ops0 ++ (ops ++ [op])) = step P (exec P (ops0 ++ ops)) op := by rw [← exec_snoc]; simp
      rw [e] at hu hlog ⊢
      have hu' := step_ub_none P _ _ hu
      have hi := (good_exec P (ops0 ++ ops)).inv hu'
      obtain ⟨l1, h1⟩ := exec_log_prefix P ops0 ops hu'
      obtain ⟨l2, h2⟩ := step_log P hi op hu
      have hnew : new = l1 ++ l2 := by
        rw [h2, h1, List.append_assoc] at hlog
        exact (List.append_cancel_left hlog).symm
      subst hnew
      obtain ⟨a1, a2⟩ := ih l1 hu' h1 (fun i v hm => hp i v (by simp [hm]))
      have hnf := step_nf P (exec P (ops0 ++ ops)) op
      exact ⟨leaf_step P hQ op hi hu a2 a1 h2 (fun i v hm => hp i v (by simp [hm])), by omega⟩
  rcases key.1 with ⟨st, r, _, _, hR⟩ | ⟨_, hB⟩
  · simpa using hR.behaves (.now st r)
  · exact hB

theorem Behaves.emits {P : Prog σ V E} {c : σ} {r : Resp V E} {vs : List V} {f : Option E} (hE : Emits P c r vs f) {l : List (Out V E)} (h : Behaves P c r l) :
    l <+: stream (vs, f) := by
  induction hE generalizing l with
  | work hn _ ih =>
    cases h <;> (try rename_i h1) <;> (try simp_all [stream]) <;> (try rename_i h2) <;> (try simp_all [stream])
  | await hn _ ih =>
    cases h <;> (try rename_i h1) <;> (try simp_all [stream]) <;> (try rename_i h2) <;> (try simp_all [stream])
  | yield hn _ ih =>
    cases h <;> (try rename_i h1) <;> (try simp_all [stream]) <;> (try rename_i h2) <;> (try simp_all [stream])
    all_goals exact ih h2
  | ret hn => cases h <;> (try rename_i h1) <;> (try simp_all [stream]) <;> (try rename_i h2) <;> (try simp_all [stream])
  | throw hn => cases h <;> (try rename_i h1) <;> (try simp_all [stream]) <;> (try rename_i h2) <;> (try simp_all [stream])

theorem leaf_emits (P : Prog σ V E) : Leaf P (fun b r => ∃ vs f, Emits P b r vs f) := by
  rintro c r ⟨vs, f, h⟩
  cases h with
  | work hn h => exact .inl ⟨_, _, hn, _, _, h⟩
  | await hn h => exact .inr (.inl ⟨_, hn, _, _, h⟩)
  | yield hn h => exact .inr (.inr (.inl ⟨_, _, hn, _, _, h⟩))
  | ret hn => exact .inr (.inr (.inr (.inl ⟨_, hn⟩)))
  | throw hn => exact .inr (.inr (.inr (.inr ⟨_, _, hn⟩)))

/-- A coroutine that has not been started has put out nothing. -/
theorem fresh_outs (x : Nat) (log : List (Ev V E)) (h : Legal Spec.next Spec.ok {} log) (hx : (Spec.after log).ph x = .fresh ∨ (Spec.after log).ph x = .unborn) :
    outs x log = [] := by
  induction log using snocInd with
  | nil => rfl
  | snoc log e ih =>
    have hl := ih h.prefix
    have hok : (Spec.after log).ok e := h _ e [] rfl
    rw [Spec.after_snoc] at hx
    rw [outs_append]
    generalize Spec.after log = S at *
    have fin : (S.ph x = .fresh ∨ S.ph x = .unborn) → out x e = none → outs x log ++ outs x [e] = [] := fun h1 h2 => by
      rw [hl h1]; simp [outs, List.filterMap_cons, h2]
    cases e with
    | yielded g' _ | returned g' | raised g' _ =>
      obtain ⟨_, k, hk⟩ := hok
      by_cases hg : x = g'
      · subst hg; simp [Spec.next, hk] at hx
      · exact fin (by simpa [Spec.next, hk, upd_other _ _ hg] using hx) (by simp [out, Ne.symm hg])
    | finished g' y =>
      by_cases hg : x = g'
      · subst hg; simp [Spec.next] at hx
      · exact fin (by simpa [Spec.next, upd_other _ _ hg] using hx) (by simp [out, Ne.symm hg])
    | spawned g' | created g' _ =>
      by_cases hg : x = g'
      · subst hg; exact fin (.inr (by simp_all [Spec.ok])) rfl
      · exact fin (by simpa [Spec.next, upd_other _ _ hg] using hx) rfl
    | adv g' _ _ | gotEnd g' _ _ | gotExc g' _ _ _ | poked _ g' _ =>
      by_cases hg : x = g'
      · subst hg; simp [Spec.next] at hx
      · exact fin (by simpa [Spec.next, upd_other _ _ hg] using hx) rfl
    | got g' _ _ =>
      obtain ⟨⟨v, hv⟩, _⟩ := hok
      by_cases hg : x = g'
      · subst hg; simp [Spec.next, hv] at hx
      · exact fin (by simpa [Spec.next, hv, upd_other _ _ hg] using hx) rfl
    | dropped o y =>
      cases y with
      | none => exact fin hx rfl
      | some g' =>
        by_cases hg : x = g'
        · subst hg; simp [Spec.next] at hx
        · exact fin (by simpa [Spec.next, upd_other _ _ hg] using hx) rfl
    | _ => exact fin hx rfl

theorem stream_cons (v : V) (vs : List V) (f : Option E) : stream (v :: vs, f) = .val v :: stream (vs, f) := by simp [stream]

/-- A loop over a source that puts out a part of `vs`, `f` puts out a part of what it makes of `vs`, `f`. -/
theorem Stage.Through.apply {K : Stage τ V E} {t : τ} {Y Z : List (Out V E)} (h : K.Through t Y Z) {vs : List V} {f : Option E}
    (hY : Y <+: stream (vs, f)) : Z <+: stream (K.apply t vs f) := by
  induction h generalizing vs with
  | wait t => simp
  | fin t Z hz =>
    cases vs with
    | nil => simp [stream] at hY; subst hY; exact hz
    | cons v vs => simp [stream] at hY
  | fail t e Z hz =>
    cases vs with
    | nil => simp [stream] at hY; subst hY; exact hz
    | cons v vs => simp [stream] at hY
  | last t v Z hz =>
    cases vs with
    | nil => simp [stream] at hY
    | cons v' vs =>
      simp [stream] at hY
      subst hY
      refine hz.trans ?_
      simp only [Stage.pass, Stage.apply, stream]
      cases (K.body t v).2 <;> simp
  | next t v t' Y Z hb _ ih =>
    cases vs with
    | nil => simp [stream] at hY
    | cons v' vs =>
      rw [stream_cons, List.cons_prefix_cons] at hY
      obtain ⟨hv, hY⟩ := hY
      cases hv
      have := ih hY
      simp only [Stage.apply, hb, stream, List.map_append, List.append_assoc, List.prefix_append_right_inj]
      exact this

/-- `Pipe P ops x w`: in the run `ops`, coroutine `x` is the end of a chain of loops over a generator, and if every one runs to its end, `x`
co_yields `w.1` and ends with `w.2`.
`source`: a generator coroutine `x` that, when it is called, is to co_yield `w.1` and end with `w.2` (any work and co_awaits in between).
`stage`: at some time `c` calls begin() of an object that holds `g`, in code that computes `K`; neither of the two has put out anything before,
nobody else advances `g` from there on.  Nobody writes through the iterators. Specification, no counterpart in /repo. -/
inductive Pipe (P : Prog σ V E) (ops : List (Op σ)) : Nat → List V × Option E → Prop
  | source (x : Nat) (w : List V × Option E) (b : σ) (ops0 ops1 : List (Op σ)) : ops = ops0 ++ ops1 → ((exec P ops0).fr x).st = some b →
      (Spec.after (exec P ops0).log).ph x = .fresh → Emits P b .start w.1 w.2 → (∀ i v, Ev.poked i x v ∉ (exec P ops).log) → Pipe P ops x w
  | stage (c g o : Nat) (w : List V × Option E) {τ : Type} (K : Stage τ V E) (S : IsStage P K) (t : τ) (st : σ) (rest : List Nat)
      (ops0 ops1 : List (Op σ)) (new : List (Ev V E)) : Pipe P ops g w → ops = ops0 ++ .tick :: ops1 → (exec P ops0).stack = c :: rest →
      ((exec P ops0).fr c).st = some st → P.next st ((exec P ops0).fr c).inp = (S.head t, .begin o) → (exec P ops0).obj o = .live (some g) →
      outs g (exec P ops0).log = [] → outs c (exec P ops0).log = [] →
      (exec P ops).log = (exec P ops0).log ++ new → (∀ k call, Ev.adv g k call ∈ new → k = c) →
      (∀ i v, Ev.poked i g v ∉ new) → (∀ i v, Ev.poked i c v ∉ new) → Pipe P ops c (K.apply t w.1 w.2)

/-- What is a part of a whole stream and contains its end is all of it. -/
theorem prefix_stream {l : List (Out V E)} {w : List V × Option E} (h : l <+: stream w) {f : Option E} (hf : .stop f ∈ l) : l = stream w := by
  obtain ⟨m, hm⟩ := h
  induction m using snocInd with
  | nil => simpa using hm
  | snoc m x _ =>
    rw [← List.append_assoc, stream] at hm
    have := (List.append_inj' hm rfl).1
    have h2 : Out.stop f ∈ w.1.map Out.val := by rw [← this]; simp [hf]
    simp at h2

/-- C75. A pipeline of generators of any length, beside arbitrary other coroutines, in every schedule: what its last member puts out is at any
time a part of what the loop bodies, applied one after the other to the values of the source, make of them; and all of it once it has ended. -/
theorem C75_pipeline (P : Prog σ V E) (ops : List (Op σ)) (hu : (exec P ops).ub = none) (x : Nat) (w : List V × Option E) (h : Pipe P ops x w) :
    outs x (exec P ops).log <+: stream w ∧ (∀ f, .stop f ∈ outs x (exec P ops).log → outs x (exec P ops).log = stream w ∧ f = w.2) := by
  have key : outs x (exec P ops).log <+: stream w := by
    induction h with
    | source x w b ops0 ops1 e hst hf hE hp =>
      subst e
      obtain ⟨new, hl⟩ := exec_log_prefix P ops0 ops1 hu
      have hu0 := exec_ub_prefix P ops0 ops1 hu
      have hi := (good_exec P ops0).inv hu0
      have h0 : outs x (exec P ops0).log = [] := by
        exact fresh_outs x _ (good_exec P ops0).legal (.inl hf)
      have hs : ((exec P ops0).fr x).status = .initial := by
        rw [hi.ph, absPh] at hf
        repeat' split at hf
        all_goals simp_all
      have hB := C75_source P _ (leaf_emits P) ops0 ops1 x b new hu hst hs ⟨_, _, hE⟩ hl (fun i v hm => hp i v (by rw [hl]; simp [hm]))
      rw [hl, outs_append, h0]
      exact Behaves.emits hE hB
    | stage c g o w K S t st rest ops0 ops1 new hg e hs hst hn ho h0 h1 hl hal hpg hpc ih =>
      subst e
      have hT := (C75_stage P K S ops0 ops1 c g o t st rest new hu hs hst hn ho hl hal hpg hpc).1
      rw [hl, outs_append, h0] at ih
      rw [hl, outs_append, h1]
      exact hT.apply ih
  refine ⟨key, fun f hf => ?_⟩
  have e := prefix_stream key hf
  refine ⟨e, ?_⟩
  rw [e] at hf
  simpa [stream] using hf

end QCoro.AGen
