import Verif.Generator.StageAt
/-! C81: pipelines of synchronous generators – one stage, sources, whole pipelines. -/
set_option linter.unusedSimpArgs false
namespace QCoro.Gen
open QCoro.AGen (Out Stage stream prefix_stream)
variable {σ V E τ : Type}

theorem outs_two {x k : Nat} {e : Ev V E} (h : out x e = none) : outs x [.ran k, e] = [] := by
  have : outs x [.ran k, e] = outs x [e] := by simp [outs, out, List.filterMap_cons]
  rw [this]; exact outs_one h

/-- `c` suspends or ends. -/
theorem own_leave (P : Prog σ V E) {s : State σ V E} {c : Nat} {cc : Call} {rest : List (Nat × Call)} {b1 : σ} {l : List (Ev V E)} (hi : Inv s)
    (hs : s.stack = (c, cc) :: rest) (f : Frame σ V E) (y : Ev V E)
    (he : step P s .tick = (({ started s c b1 with fr := upd (started s c b1).fr c f, stack := rest } : State σ V E).emit y).after c cc)
    (hub : (step P s .tick).ub = none) (hl : (step P s .tick).log = s.log ++ l) (ha : ∀ x k v, y ≠ .adv x k v) :
    outs c l = (out c y).toList ∧ (step P s .tick).fr c = f ∧ (∀ x k v, Ev.adv x k v ∉ l) := by
  rw [he] at hub
  obtain ⟨e, h1, h2, h3, h4, h5, h6, h7, h8, h9⟩ := after_effect (by simpa [State.emit, started] using hi.itB) hub
  rw [← he] at h1 h9
  have hm : l = [.ran c, y, e] := by
    rw [hl] at h1
    refine List.append_cancel_left (as := s.log) ?_
    rw [h1]; simp [State.emit, started]
  refine ⟨by rw [hm]; exact outs_three (h2 c), ?_, ?_⟩
  · rw [h9 c (fun k t h => ?_)]
    · simp [State.emit]
    · have := hi.nodup
      rw [hs, show rest = (c, k) :: t from h] at this
      simp at this
  · intro x k v hx
    rw [hm] at hx
    simp at hx
    rcases hx with hx | hx
    · exact ha x k v hx.symm
    · exact h4 x k v hx.symm

theorem own_yield (P : Prog σ V E) {s : State σ V E} {c : Nat} {cc : Call} {rest : List (Nat × Call)} {st st1 : σ} {r : Resp V E} {w : V} {l : List (Ev V E)}
    (hi : Inv s) (hu : s.ub = none) (hs : s.stack = (c, cc) :: rest) (hst : (s.fr c).st = some st) (hr : (s.fr c).inp = r)
    (hn : P.next st r = (st1, .yield w)) (hub : (step P s .tick).ub = none) (hl : (step P s .tick).log = s.log ++ l) :
    outs c l = [.val w] ∧ Ctl (step P s .tick) c st1 (.resumed w) ∧ (∀ x k v, Ev.adv x k v ∉ l) := by
  obtain ⟨h1, h2, h3⟩ := own_leave P (c := c) (b1 := st1) hi hs { (started s c st1).fr c with value := some w, status := .yielded } (.yielded c w) (step_tick P hu hs hst hr hn) hub hl (by simp)
  refine ⟨by rw [h1]; simp [out], ⟨by rw [h2]; simp [started, State.emit], .inr (.inr ⟨by rw [h2], w, by rw [h2], rfl⟩)⟩, h3⟩

theorem own_end (P : Prog σ V E) {s : State σ V E} {c : Nat} {cc : Call} {rest : List (Nat × Call)} {st st1 : σ} {r : Resp V E} {a : Act σ V E} {l : List (Ev V E)}
    {f : Option E} (ha : f = none ∧ a = .ret ∨ ∃ e, f = some e ∧ a = .throw e)
    (hi : Inv s) (hu : s.ub = none) (hs : s.stack = (c, cc) :: rest) (hst : (s.fr c).st = some st) (hr : (s.fr c).inp = r)
    (hn : P.next st r = (st1, a)) (hub : (step P s .tick).ub = none) (hl : (step P s .tick).log = s.log ++ l) :
    outs c l = [.stop f] ∧ ((step P s .tick).fr c).status = .done ∧ (∀ x k v, Ev.adv x k v ∉ l) := by
  rcases ha with ⟨rfl, rfl⟩ | ⟨e, rfl, rfl⟩
  · obtain ⟨h1, h2, h3⟩ := own_leave P (c := c) (b1 := st1) hi hs { (started s c st1).fr c with value := none, status := .done } (.returned c) (step_tick P hu hs hst hr hn) hub hl (by simp)
    exact ⟨by rw [h1]; simp [out], by rw [h2], h3⟩
  · obtain ⟨h1, h2, h3⟩ := own_leave P (c := c) (b1 := st1) hi hs { (started s c st1).fr c with exc := some e, value := none, status := .done } (.raised c e) (step_tick P hu hs hst hr hn) hub hl (by simp)
    exact ⟨by rw [h1]; simp [out], by rw [h2], h3⟩

/-- `c` makes a call that is answered at once. -/
theorem own_call {s s' : State σ V E} {c : Nat} {cc : Call} {rest : List (Nat × Call)} {b1 : σ} {e : Ev V E} {r : Resp V E} {l : List (Ev V E)}
    (hs : s.stack = (c, cc) :: rest) (s1 : State σ V E) (h1 : s1.stack = s.stack) (h2 : s1.fr = (started s c b1).fr) (h3 : s1.log = (started s c b1).log)
    (he : s' = (s1.emit e).reply r) (hl : s'.log = s.log ++ l) (ho : out c e = none) (ha : ∀ x k v, e ≠ .adv x k v) :
    outs c l = [] ∧ s'.stack = (c, cc) :: rest ∧ (s'.fr c).st = some b1 ∧ (s'.fr c).inp = r ∧ s'.it = s1.it ∧ (∀ x k v, Ev.adv x k v ∉ l) := by
  have hm : l = [.ran c, e] := by
    refine List.append_cancel_left (as := s.log) ?_
    rw [← hl, he, reply_log]; simp [State.emit, h3, started]
  subst he
  refine ⟨by rw [hm]; exact outs_two ho, by rw [reply_stack]; simp [State.emit, h1, hs], ?_, ?_, by rw [reply_it]; rfl, ?_⟩
  · simp [State.reply, State.emit, h1, hs, h2, started]
  · simp [State.reply, State.emit, h1, hs]
  · intro x k v hx
    rw [hm] at hx
    simp at hx
    exact ha x k v hx.symm

/-- The stage itself acts. -/
theorem at_own (P : Prog σ V E) (K : Stage τ V E) (S : IsStage P K) {c g : Nat} {t0 : τ} {s : State σ V E} {n l : List (Ev V E)}
    (hi : Inv s) (hu : s.ub = none) (hub : (step P s .tick).ub = none) (hg : g < s.nf) (hne : c ≠ g) {cc : Call} {rest : List (Nat × Call)} (hs : s.stack = (c, cc) :: rest)
    (h : At K P S c g t0 s n) (hl : (step P s .tick).log = s.log ++ l) (hC : StepCase s (step P s .tick) .tick l) (hpg : ∀ v, Ev.poked g v ∉ l) :
    At K P S c g t0 (step P s .tick) (n ++ l) := by
  have hrun : (s.fr c).status = .running := (hi.run c).2 (by simp [hs])
  have qg := hC.quiet hg (fun _ cc' t' h => by rw [hs] at h; cases h; exact hne rfl)
  have itk : ∀ i h, (h = none ∨ h = some g) → s.it i = some h → (step P s .tick).it i = some h := by
    intro i h hh hit
    refine hC.it hit ?_
    intro _ k t hs'
    have := hi.inc k i (by simp [hs'])
    rw [hs] at hs'; cases hs'
    rw [hit] at this
    rcases hh with rfl | rfl
    · cases this
    · cases this; exact hne rfl
  have pg : (∀ call v, Ev.adv g call v ∉ l) → ((s.fr g).status = .yielded ∨ (s.fr g).status = .done) →
      ((step P s .tick).fr g).status = (s.fr g).status ∧ ((step P s .tick).fr g).value = (s.fr g).value :=
    fun ha hst => qg.parked hi hst hpg ha
  have og : ∀ Y, outs g n = Y → outs g (n ++ l) = Y := by intro Y h; rw [outs_append, qg.outs, h]; simp
  have oc : ∀ Z, outs c l = [] → outs c n = Z → outs c (n ++ l) = Z := by intro Y h1 h; rw [outs_append, h1, h]; simp
  have bye : ∀ {f : Option E}, ((step P s .tick).fr c).status = .done → ((step P s .tick).fr g).status = (s.fr g).status →
      ((s.fr g).status = .yielded ∨ (s.fr g).status = .done) → outs c l = [.stop f] →
      K.Through t0 (outs g n) (outs c n ++ [.stop f]) → At K P S c g t0 (step P s .tick) (n ++ l) := by
    intro f d1 d2 d3 d4 d6
    refine .over d1 (by rw [d2]; exact d3) ?_
    rw [outs_append, outs_append, d4, qg.outs]; simpa using d6
  have fin_body : ∀ {t vs zs v done f}, K.Ran t0 vs t zs → K.body t v = (done ++ [], Sum.inr f) → outs g n = (vs ++ [v]).map .val →
      outs c n = (zs ++ done).map .val → K.Through t0 (outs g n) (outs c n ++ [.stop f]) := by
    intro t vs zs v done f d1 d2 d3 d4
    have := d1.through (.last t v (done.map .val ++ [.stop f]) (by simp [Stage.pass, d2]))
    rw [d3, d4]; simpa using this
  have fin_tail : ∀ {t vs zs f done fw} {w : List V × Option E}, K.Ran t0 vs t zs → w.1 = done → w.2 = fw →
      (f = none ∧ w = K.fin t ∨ ∃ e, f = some e ∧ w = K.fail t e) → outs g n = vs.map .val ++ [.stop f] → outs c n = (zs ++ done).map .val →
      K.Through t0 (outs g n) (outs c n ++ [.stop fw]) := by
    intro t vs zs f done fw w d1 d2 d3 d4 d5 d6
    have hp : done.map Out.val ++ [.stop fw] <+: stream w := by simp [stream, d2, d3]
    rcases d4 with ⟨rfl, rfl⟩ | ⟨e, rfl, rfl⟩
    · have := d1.through (.fin t _ hp); rw [d5, d6]; simpa using this
    · have := d1.through (.fail t e _ hp); rw [d5, d6]; simpa using this
  -- end(): a new iterator
  have do_end : ∀ {t i}, (s.fr c).st = some (S.first t) → (s.fr c).inp = .iter i →
      Pos S (step P s .tick) c t i ∧ outs c l = [] ∧ (∀ x k v, Ev.adv x k v ∉ l) := by
    intro t i a1 a2
    have e := step_tick P hu hs a1 a2 (S.hEnd t i)
    obtain ⟨h1, h2, h3, h4, h5, h6⟩ := own_call hs { started s c (S.made t i) with it := upd s.it s.ni (some none), ni := s.ni + 1 } rfl rfl rfl e hl rfl (by simp)
    exact ⟨⟨⟨cc, rest, h2⟩, .inr (.inl ⟨s.ni, h3, h4, by rw [h5]; simp⟩)⟩, h1, h6⟩
  -- the comparison
  have do_cmp : ∀ {t i j h st}, (s.fr c).st = some st → P.next st (s.fr c).inp = (S.test t i j, .api (.cmp i j)) → s.it i = some h → s.it j = some none →
      (step P s .tick).stack = (c, cc) :: rest ∧ ((step P s .tick).fr c).st = some (S.test t i j) ∧ ((step P s .tick).fr c).inp = .flag (h == none) ∧
      outs c l = [] ∧ (∀ x k v, Ev.adv x k v ∉ l) := by
    intro t i j h st a1 a2 a3 a4
    have e := step_tick P hu hs a1 rfl a2
    have e' : step P s .tick = ((started s c (S.test t i j)).emit (.cmp i j (h == none))).reply (.flag (h == none)) := by
      rw [e]; simp [State.body, State.api, started, State.emit, a3, a4]
    obtain ⟨h1, h2, h3, h4, h5, h6⟩ := own_call hs (started s c (S.test t i j)) rfl rfl rfl e' hl rfl (by simp)
    exact ⟨h2, h3, h4, h1, h6⟩
  -- work
  have do_work : ∀ {st r c' m}, (s.fr c).st = some st → (s.fr c).inp = r → P.next st r = (c', .api (.work m)) →
      Ctl (step P s .tick) c c' .unit ∧ outs c l = [] ∧ (∀ x k v, Ev.adv x k v ∉ l) := by
    intro st r c' m a1 a2 a3
    have e := step_tick P hu hs a1 a2 a3
    have e' : step P s .tick = ((started s c c').emit (.work (some c) m)).reply .unit := by
      rw [e]; simp [State.body, State.api, started, State.emit, hs]
    obtain ⟨h1, h2, h3, h4, h5, h6⟩ := own_call hs (started s c c') rfl rfl rfl e' hl rfl (by simp)
    exact ⟨⟨h3, .inl ⟨⟨cc, rest, h2⟩, h4⟩⟩, h1, h6⟩
  cases h with
  | wait t vs zs k st pre cc' rest' a1 a2 =>
    exfalso
    have nd := hi.nodup
    rw [hs] at a2
    rw [hs] at nd
    cases pre with
    | nil => simp at a2; exact hne a2.1.1
    | cons p pre =>
      simp at a2
      rw [a2.2] at nd
      simp [List.nodup_append] at nd
  | over a1 => rw [hrun] at a1; cases a1
  | got t vs zs i v a1 a2 a3 a4 a5 a6 a7 =>
    rcases a2 with ⟨_, ⟨b1, b2⟩ | ⟨j, b1, b2, b3⟩ | ⟨j, b1, b2, b3⟩⟩ | ⟨_, j, b1, b2, b3⟩
    · obtain ⟨k1, k2, k3⟩ := do_end b1 b2
      have kg := pg (k3 g) (.inl a4)
      exact .got t vs zs i v a1 (.inl k1) (itk i _ (.inr rfl) a3) (by rw [kg.1]; exact a4) (by rw [kg.2]; exact a5) (og _ a6) (oc _ k2 a7)
    · obtain ⟨k1, k2, k3, k4, k5⟩ := do_cmp b1 (by rw [b2]; exact S.hCmp0 t i j) a3 b3
      have kg := pg (k5 g) (.inl a4)
      exact .got t vs zs i v a1 (.inr ⟨⟨cc, rest, k1⟩, j, k2, k3, itk j _ (.inl rfl) b3⟩) (itk i _ (.inr rfl) a3) (by rw [kg.1]; exact a4) (by rw [kg.2]; exact a5) (og _ a6) (oc _ k4 a7)
    · obtain ⟨k1, k2, k3, k4, k5⟩ := do_cmp b1 (by rw [b2]; exact S.hCmp t i j) a3 b3
      have kg := pg (k5 g) (.inl a4)
      exact .got t vs zs i v a1 (.inr ⟨⟨cc, rest, k1⟩, j, k2, k3, itk j _ (.inl rfl) b3⟩) (itk i _ (.inr rfl) a3) (by rw [kg.1]; exact a4) (by rw [kg.2]; exact a5) (og _ a6) (oc _ k4 a7)
    · have e := step_tick P hu hs b1 b2 (S.hRead t i j)
      have hfg : (started s c (S.read t i j)).fr g = s.fr g := by simp [started, State.emit, upd_other _ _ (Ne.symm hne)]
      have hgf : (s.fr g).freed = false := by
        cases hf : (s.fr g).freed with
        | false => rfl
        | true => rw [e] at hub; simp [State.body, State.api, show (started s c (S.read t i j)).it = s.it from rfl, a3, hfg, hf, State.fail] at hub
      have e' : step P s .tick = ((started s c (S.read t i j)).emit (.read i v)).reply (.val v) := by
        rw [e]; simp [State.body, State.api, show (started s c (S.read t i j)).it = s.it from rfl, a3, hfg, hgf, a4, a5]
      obtain ⟨h1, h2, h3, h4, h5, h6⟩ := own_call hs (started s c (S.read t i j)) rfl rfl rfl e' hl rfl (by simp)
      have kg := pg (h6 g) (.inl a4)
      exact .body t vs zs i j v (S.read t i j) (.val v) [] (K.body t v).1 (K.body t v).2 a1 ⟨h3, .inl ⟨⟨cc, rest, h2⟩, h4⟩⟩ (S.hBody t i j v) (by simp) (itk i _ (.inr rfl) a3)
        (itk j _ (.inl rfl) b3) (by rw [kg.1]; exact a4) (og _ a6) (by simpa using oc _ h1 a7)
  | ended t vs zs i a1 a2 a3 a4 a5 a6 =>
    have done : ∀ j, (step P s .tick).stack = (c, cc) :: rest → ((step P s .tick).fr c).st = some (S.test t i j) → ((step P s .tick).fr c).inp = .flag true →
        outs c l = [] → (∀ x k v, Ev.adv x k v ∉ l) → At K P S c g t0 (step P s .tick) (n ++ l) := by
      intro j k1 k2 k3 k4 k5
      have kg := pg (k5 g) (.inr a4)
      exact .tail t vs zs none (K.fin t) (S.test t i j) (.flag true) [] (K.fin t).1 a1 ⟨k2, .inl ⟨⟨cc, rest, k1⟩, k3⟩⟩ (S.hFin t i j) (by simp) (.inl ⟨rfl, rfl⟩)
        (by rw [kg.1]; exact a4) (og _ a5) (by simpa using oc _ k4 a6)
    rcases a2 with ⟨_, ⟨b1, b2⟩ | ⟨j, b1, b2, b3⟩ | ⟨j, b1, b2, b3⟩⟩
    · obtain ⟨k1, k2, k3⟩ := do_end b1 b2
      have kg := pg (k3 g) (.inr a4)
      exact .ended t vs zs i a1 k1 (itk i _ (.inl rfl) a3) (by rw [kg.1]; exact a4) (og _ a5) (oc _ k2 a6)
    · obtain ⟨k1, k2, k3, k4, k5⟩ := do_cmp b1 (by rw [b2]; exact S.hCmp0 t i j) a3 b3
      exact done j k1 k2 k3 k4 k5
    · obtain ⟨k1, k2, k3, k4, k5⟩ := do_cmp b1 (by rw [b2]; exact S.hCmp t i j) a3 b3
      exact done j k1 k2 k3 k4 k5
  | body t vs zs i j v st r done rs q h1 h2 h3 h4 h5 h5' h6 h7 h8 =>
    have hr : (s.fr c).inp = r := by
      rcases h2.2 with h | h | h
      · exact h.2
      · simp [hrun] at h
      · simp [hrun] at h
    obtain ⟨q', hq, h3⟩ : ∃ q', (match q with | .inl t' => Sum.inl (S.loop t' i j) | .inr f => Sum.inr f : σ ⊕ Option E) = q' ∧ InBody P i st r rs q' := ⟨_, rfl, h3⟩
    cases h3 with
    | @work _ _ c' m _ _ hn hB =>
      obtain ⟨k1, k2, k3⟩ := do_work h2.1 hr hn
      have kg := pg (k3 g) (.inl h6)
      exact .body t vs zs i j v c' .unit done rs q h1 k1 (by rw [← hq] at hB; exact hB) h4 (itk i _ (.inr rfl) h5) (itk j _ (.inl rfl) h5') (by rw [kg.1]; exact h6) (og _ h7) (oc _ k2 h8)
    | @yield _ _ c' w ws _ hn hB =>
      obtain ⟨m2, m4, m7⟩ := own_yield P hi hu hs h2.1 hr hn hub hl
      have kg := pg (m7 g) (.inl h6)
      refine .body t vs zs i j v c' (.resumed w) (done ++ [w]) ws q h1 m4 (by rw [← hq] at hB; exact hB) (by rw [h4]; simp) (itk i _ (.inr rfl) h5) (itk j _ (.inl rfl) h5')
        (by rw [kg.1]; exact h6) (og _ h7) ?_
      rw [outs_append, h8, m2]; simp
    | @next _ _ c' hn =>
      cases q with
      | inr f => simp at hq
      | inl t' =>
        simp at hq
        subst hq
        have e := step_tick P hu hs h2.1 hr hn
        have e' : step P s .tick = (started s c (S.loop t' i j)).resume g (.inc i) .iterDangling := by
          rw [e]; simp [State.body, State.api, show (started s c (S.loop t' i j)).it = s.it from rfl, h5]
        have hub' := hub
        rw [e'] at hub'
        obtain ⟨ev, k1, k2, k3, k4, k5, k6⟩ := effect_resume hub'
        rw [← e'] at k1 k3 k5 k6
        have hm : l = [.ran c, ev] := by
          refine List.append_cancel_left (as := s.log) ?_
          rw [← hl, k1.log]; simp [started, State.emit]
        have hR := h1.snoc (v := v) (t'' := t') (by rw [h4])
        rw [h4] at hR
        refine .wait t' (vs ++ [v]) (zs ++ (done ++ [])) (.inc i) (S.loop t' i j) [] cc rest hR ?_ ?_ (.inr ⟨i, j, rfl, rfl, itk j _ (.inl rfl) h5'⟩) (og _ h7) ?_
        · rw [k3, show (started s c (S.loop t' i j)).stack = s.stack from rfl, hs]; rfl
        · rw [k5 c hne]; simp [started, State.emit]
        · rw [outs_append, h8, hm, outs_two (k1.out c)]; simp
    | @ret _ _ c' hn =>
      cases q with
      | inl t' => simp at hq
      | inr f =>
        simp at hq
        subst hq
        obtain ⟨m2, m4, m5⟩ := own_end P (.inl ⟨rfl, rfl⟩) hi hu hs h2.1 hr hn hub hl
        exact bye m4 (pg (m5 g) (.inl h6)).1 (.inl h6) m2 (fin_body h1 h4 h7 h8)
    | @throw _ _ c' e hn =>
      cases q with
      | inl t' => simp at hq
      | inr f =>
        simp at hq
        subst hq
        obtain ⟨m2, m4, m5⟩ := own_end P (.inr ⟨e, rfl, rfl⟩) hi hu hs h2.1 hr hn hub hl
        exact bye m4 (pg (m5 g) (.inl h6)).1 (.inl h6) m2 (fin_body h1 h4 h7 h8)
  | tail t vs zs f w st r done rs h1 h2 h3 h4 h5 h6 h7 h8 =>
    have hr : (s.fr c).inp = r := by
      rcases h2.2 with h | h | h
      · exact h.2
      · simp [hrun] at h
      · simp [hrun] at h
    obtain ⟨fw, hfw⟩ : ∃ fw, w.2 = fw := ⟨_, rfl⟩
    rw [hfw] at h3
    cases h3 with
    | @work _ _ c' m _ _ hn hB =>
      obtain ⟨k1, k2, k3⟩ := do_work h2.1 hr hn
      have kg := pg (k3 g) (.inr h6)
      exact .tail t vs zs f w c' .unit done rs h1 k1 (hfw ▸ hB) h4 h5 (by rw [kg.1]; exact h6) (og _ h7) (oc _ k2 h8)
    | @yield _ _ c' x ws _ hn hB =>
      obtain ⟨m2, m4, m7⟩ := own_yield P hi hu hs h2.1 hr hn hub hl
      have kg := pg (m7 g) (.inr h6)
      refine .tail t vs zs f w c' (.resumed x) (done ++ [x]) ws h1 m4 (hfw ▸ hB) (by rw [h4]; simp) h5 (by rw [kg.1]; exact h6) (og _ h7) ?_
      rw [outs_append, h8, m2]; simp
    | @ret _ _ c' hn =>
      obtain ⟨m2, m4, m5⟩ := own_end P (.inl ⟨rfl, rfl⟩) hi hu hs h2.1 hr hn hub hl
      exact bye m4 (pg (m5 g) (.inr h6)).1 (.inr h6) m2 (fin_tail h1 (by simpa using h4) hfw h5 h7 h8)
    | @throw _ _ c' e hn =>
      obtain ⟨m2, m4, m5⟩ := own_end P (.inr ⟨e, rfl, rfl⟩) hi hu hs h2.1 hr hn hub hl
      exact bye m4 (pg (m5 g) (.inr h6)).1 (.inr h6) m2 (fin_tail h1 (by simpa using h4) hfw h5 h7 h8)

/-- Whoever advances `g` in one step is on top of the stack, or it is the main program. -/
theorem only_local {c g : Nat} {s s' : State σ V E} {op : Op σ V} {n l : List (Ev V E)} (hl : StepCase s s' op l) (hn : ∀ k, n.getLast? ≠ some (.ran k))
    (hal : OnlyBy c g (n ++ l)) (h1 : op = .tick → ∀ cc rest, s.stack ≠ (c, cc) :: rest) (call : Call) (v : Option V) : Ev.adv g call v ∉ l := by
  intro hm
  rcases hl.adv hm with h | ⟨k, kc, rest, ho, hs, h⟩
  · subst h
    exact hn c (hal n call v [] rfl)
  · subst h
    have := hal (n ++ [.ran k]) call v [] (by simp)
    simp at this
    subst this
    exact h1 ho kc rest hs

theorem at_step (P : Prog σ V E) (K : Stage τ V E) (S : IsStage P K) {c g : Nat} {t0 : τ} {s : State σ V E} {n l : List (Ev V E)} (op : Op σ V)
    (hi : Inv s) (hub : (step P s op).ub = none) (hc : c < s.nf) (hg : g < s.nf) (hne : c ≠ g)
    (h : At K P S c g t0 s n) (hl : (step P s op).log = s.log ++ l) (hC : StepCase s (step P s op) op l) (hn : ∀ k, n.getLast? ≠ some (.ran k))
    (hal : OnlyBy c g (n ++ l)) (hpg : ∀ v, Ev.poked g v ∉ l) (hpc : ∀ v, Ev.poked c v ∉ l) :
    At K P S c g t0 (step P s op) (n ++ l) := by
  have hu := step_ub_none P s op hub
  by_cases h1 : op = .tick ∧ ∃ cc rest, s.stack = (c, cc) :: rest
  · obtain ⟨rfl, cc, rest, hs⟩ := h1
    exact at_own P K S hi hu hub hg hne hs h hl hC hpg
  · have h1' : op = .tick → ∀ cc rest, s.stack ≠ (c, cc) :: rest := fun e cc rest hs => h1 ⟨e, cc, rest, hs⟩
    by_cases h2 : op = .tick ∧ ∃ k cc rest, s.stack = (g, k) :: (c, cc) :: rest
    · obtain ⟨rfl, k, cc, rest, hs⟩ := h2
      have crun : (s.fr c).status = .running := (hi.run c).2 (by simp [hs])
      have ctop : (∃ cc rest, s.stack = (c, cc) :: rest) → False := fun ⟨cc, rest, h⟩ => h1' rfl cc rest h
      have nctl : ∀ {st r}, Ctl s c st r → False := by
        intro st r hh
        rcases hh.2 with h | h | h
        · exact ctop h.1
        · simp [crun] at h
        · simp [crun] at h
      cases h with
      | wait t vs zs k' st pre cc' rest' e1 e2 e3 e4 e5 e6 =>
        cases pre with
        | nil =>
          simp at e2
          exact at_source P K S hi hu hub hne e2 e1 e3 e4 e5 e6 hl hc hpc
        | cons p pre =>
          exfalso
          have nd := hi.nodup
          rw [hs] at e2 nd
          cases pre with
          | nil => simp at e2; exact hne e2.2.1.1
          | cons x pre => simp at e2; rw [e2.2.2] at nd; simp [List.nodup_append] at nd
      | got t vs zs i v e1 e2 => rcases e2 with ⟨h, _⟩ | ⟨h, _⟩ <;> exact absurd h ctop
      | body t vs zs i j v st r done rs q e1 e2 => exact absurd e2 nctl
      | ended t vs zs i e1 e2 => exact absurd e2.1 ctop
      | tail t vs zs f w st r done rs e1 e2 => exact absurd e2 nctl
      | over e1 => rw [crun] at e1; cases e1
    · exact at_other P K S op hi hc hg h hC h1' (fun e k cc rest hs => h2 ⟨e, k, cc, rest, hs⟩) (only_local hC hn hal h1') hpg hpc

theorem exec_ub_prefix (P : Prog σ V E) (a b : List (Op σ V)) (h : (exec P (a ++ b)).ub = none) : (exec P a).ub = none := by
  induction b using snocInd with
  | nil => simpa using h
  | snoc b op ih =>
    rw [← List.append_assoc, exec_snoc] at h
    exact ih (step_ub_none P _ _ h)

theorem exec_log_prefix (P : Prog σ V E) (a b : List (Op σ V)) (h : (exec P (a ++ b)).ub = none) : ∃ l, (exec P (a ++ b)).log = (exec P a).log ++ l := by
  induction b using snocInd with
  | nil => exact ⟨[], by simp⟩
  | snoc b op ih =>
    rw [← List.append_assoc] at h
    have h' := exec_ub_prefix P _ _ h
    obtain ⟨l, hl⟩ := ih h'
    rw [exec_snoc] at h
    obtain ⟨m, hm, _⟩ := step_case P ((good_exec P (a ++ b)).inv h') op h
    exact ⟨l ++ m, by rw [← List.append_assoc, exec_snoc, hm, hl, List.append_assoc]⟩

theorem last_append {n l : List (Ev V E)} (hn : ∀ k, n.getLast? ≠ some (.ran k)) (hl : ∀ k, l.getLast? ≠ some (.ran k)) (k : Nat) :
    (n ++ l).getLast? ≠ some (.ran k) := by
  rw [List.getLast?_append]
  cases h : l.getLast? with
  | none => simpa [h] using hn k
  | some e => rw [← h]; simpa [h] using hl k

/-- The loop starts: `c` calls begin() of an object that holds `g`. -/
theorem at_start (P : Prog σ V E) (K : Stage τ V E) (S : IsStage P K) {c g o : Nat} {t : τ} {s : State σ V E} {l : List (Ev V E)} {cc : Call}
    {rest : List (Nat × Call)} {st : σ} (hi : Inv s) (hub : (step P s .tick).ub = none) (hs : s.stack = (c, cc) :: rest) (hst : (s.fr c).st = some st)
    (hn : P.next st (s.fr c).inp = (S.first t, .api (.begin o))) (ho : s.obj o = .live (some g)) (hl : (step P s .tick).log = s.log ++ l)
    (hC : StepCase s (step P s .tick) .tick l) (hg : g < s.nf) :
    c ≠ g ∧ At K P S c g t (step P s .tick) l := by
  have hu := step_ub_none P s .tick hub
  have e := step_tick P hu hs hst rfl hn
  have hrun : (s.fr c).status = .running := (hi.run c).2 (by simp [hs])
  have e' : step P s .tick = (started s c (S.first t)).resume g (.begin o) .ownerDangling := by
    rw [e]; simp [State.body, State.api, show (started s c (S.first t)).obj = s.obj from rfl, ho]
  have hne : c ≠ g := by
    rintro rfl
    have hf := ((hi.wf c).run hrun).2
    rw [e'] at hub
    simp [State.resume, started, State.emit, hf, hrun, State.fail] at hub
  have hub' := hub
  rw [e'] at hub'
  obtain ⟨ev, k1, k2, k3, k4, k5, k6⟩ := effect_resume hub'
  rw [← e'] at k1 k3 k5 k6
  have hm : l = [.ran c, ev] := by
    refine List.append_cancel_left (as := s.log) ?_
    rw [← hl, k1.log]; simp [started, State.emit]
  refine ⟨hne, .wait t [] [] (.begin o) (S.first t) [] cc rest (.nil t) ?_ ?_ (.inl ⟨rfl, o, rfl⟩) ?_ ?_⟩
  · rw [k3, show (started s c (S.first t)).stack = s.stack from rfl, hs]; rfl
  · rw [k5 c hne]; simp [started, State.emit]
  · exact (hC.quiet hg (fun _ cc' t' h => by rw [hs] at h; cases h; exact hne rfl)).outs
  · rw [hm]; exact outs_two (k1.out c)

theorem at_exec (P : Prog σ V E) (K : Stage τ V E) (S : IsStage P K) (ops0 ops1 : List (Op σ V)) (c g o : Nat) (t : τ) (st : σ) (cc : Call)
    (rest : List (Nat × Call)) (new : List (Ev V E)) (hu : (exec P (ops0 ++ .tick :: ops1)).ub = none) (hs : (exec P ops0).stack = (c, cc) :: rest)
    (hst : ((exec P ops0).fr c).st = some st) (hn : P.next st ((exec P ops0).fr c).inp = (S.first t, .api (.begin o)))
    (ho : (exec P ops0).obj o = .live (some g)) (hlog : (exec P (ops0 ++ .tick :: ops1)).log = (exec P ops0).log ++ new)
    (hal : OnlyBy c g new) (hpg : Unwritten g new) (hpc : Unwritten c new) :
    c ≠ g ∧ c < (exec P (ops0 ++ .tick :: ops1)).nf ∧ g < (exec P (ops0 ++ .tick :: ops1)).nf ∧ (∀ k, new.getLast? ≠ some (.ran k)) ∧
      At K P S c g t (exec P (ops0 ++ .tick :: ops1)) new := by
  induction ops1 using snocInd generalizing new with
  | nil =>
    rw [exec_snoc] at hu hlog ⊢
    have hi := (good_exec P ops0).inv (step_ub_none P _ _ hu)
    have hc : c < (exec P ops0).nf := (hi.born c).2 (by rw [(hi.run c).2 (by simp [hs])]; simp)
    have hg : g < (exec P ops0).nf := (hi.born g).2 (hi.own o g ho).2
    obtain ⟨l, h1, h2⟩ := step_case P hi .tick hu
    have : l = new := by rw [h1] at hlog; exact List.append_cancel_left hlog
    subst this
    have h := at_start P K S hi hu hs hst hn ho hlog h2 hg
    have hnf := h2.nf
    exact ⟨h.1, by omega, by omega, h2.last, h.2⟩
  | snoc ops op ih =>
    have e : exec P (ops0 ++ .tick :: (ops ++ [op])) = step P (exec P (ops0 ++ .tick :: ops)) op := by
      rw [← exec_snoc]; simp
    rw [e] at hu hlog ⊢
    have hu' := step_ub_none P _ _ hu
    have hi := (good_exec P (ops0 ++ .tick :: ops)).inv hu'
    obtain ⟨l1, h1⟩ := exec_log_prefix P ops0 (.tick :: ops) hu'
    obtain ⟨l2, h2, h3⟩ := step_case P hi op hu
    have hnew : new = l1 ++ l2 := by
      rw [h2, h1, List.append_assoc] at hlog
      exact (List.append_cancel_left hlog).symm
    subst hnew
    obtain ⟨a1, a2, a3, a5, a4⟩ := ih l1 hu' h1 (fun p call seen q he => hal p call seen (q ++ l2) (by rw [he]; simp)) (fun v hm => hpg v (by simp [hm])) (fun v hm => hpc v (by simp [hm]))
    have hnf := h3.nf
    exact ⟨a1, by omega, by omega, last_append a5 h3.last, at_step P K S op hi hu a2 a3 a1 a4 h2 h3 a5 hal (fun v hm => hpg v (by simp [hm])) (fun v hm => hpc v (by simp [hm]))⟩

theorem At.spec {P : Prog σ V E} {K : Stage τ V E} {S : IsStage P K} {c g : Nat} {t0 : τ} {s : State σ V E} {n : List (Ev V E)}
    (h : At K P S c g t0 s n) : K.Through t0 (outs g n) (outs c n) := by
  cases h with
  | wait t vs zs k st pre cc rest h1 h2 h3 h4 h5 h6 => have := h1.through (.wait t); rw [h5, h6]; simpa using this
  | got t vs zs i v h1 h2 h3 h4 h5 h7 h8 => have := h1.through (.last t v [] (by simp)); rw [h7, h8]; simpa using this
  | body t vs zs i j v st r done rest q h1 h2 h3 h4 h5 h5' h6 h7 h8 =>
    have := h1.through (.last t v (done.map .val) (by
      simp only [Stage.pass, h4, List.map_append, List.append_assoc]; exact List.prefix_append _ _))
    rw [h7, h8]; simpa using this
  | ended t vs zs i h1 h2 h3 h4 h7 h8 => have := h1.through (.fin t [] (by simp)); rw [h7, h8]; simpa using this
  | tail t vs zs f w st r done rest h1 h2 h3 h4 h5 h6 h7 h8 =>
    have hp : done.map Out.val <+: stream w := by
      simp only [stream, h4, List.map_append, List.append_assoc]; exact List.prefix_append _ _
    rcases h5 with ⟨rfl, rfl⟩ | ⟨e, rfl, rfl⟩
    · have := h1.through (.fin t _ hp); rw [h7, h8]; simpa using this
    · have := h1.through (.fail t e _ hp); rw [h7, h8]; simpa using this
  | over h1 h2 h3 => exact h3

/-- C81. A stage of a pipeline.  In an arbitrary history, beside arbitrary other code, the body of generator `c` starts a range-for loop over an
object that holds generator `g`, in code that computes `K`; nobody else advances `g`, and nobody writes through iterators of `g` or of `c`.  Then
from there on what `c` puts out is what the loop makes of what `g` puts out, and `g` never gets ahead of it: it is resumed only when the loop body
is through with the previous value. -/
theorem C81_stage (P : Prog σ V E) (K : Stage τ V E) (S : IsStage P K) (ops0 ops1 : List (Op σ V)) (c g o : Nat) (t : τ) (st : σ) (cc : Call)
    (rest : List (Nat × Call)) (new : List (Ev V E)) (hu : (exec P (ops0 ++ .tick :: ops1)).ub = none) (hs : (exec P ops0).stack = (c, cc) :: rest)
    (hst : ((exec P ops0).fr c).st = some st) (hn : P.next st ((exec P ops0).fr c).inp = (S.first t, .api (.begin o)))
    (ho : (exec P ops0).obj o = .live (some g)) (hlog : (exec P (ops0 ++ .tick :: ops1)).log = (exec P ops0).log ++ new)
    (hal : OnlyBy c g new) (hpg : Unwritten g new) (hpc : Unwritten c new) :
    K.Through t (outs g new) (outs c new) :=
  (at_exec P K S ops0 ops1 c g o t st cc rest new hu hs hst hn ho hlog hal hpg hpc).2.2.2.2.spec

/-! ### Sources and whole pipelines -/

/-- What the code at state `c`, told `r`, can have put out so far, if it only works, co_yields and ends – it need never end.
Specification of user code, no counterpart in /repo. -/
inductive Behaves (P : Prog σ V E) : σ → Resp V E → List (Out V E) → Prop
  | now (c r) : Behaves P c r []
  | work {c r c' n l} : P.next c r = (c', .api (.work n)) → Behaves P c' .unit l → Behaves P c r l
  | yield {c r c' v l} : P.next c r = (c', .yield v) → Behaves P c' (.resumed v) l → Behaves P c r (.val v :: l)
  | ret {c r c'} : P.next c r = (c', .ret) → Behaves P c r [.stop none]
  | throw {c r c' e} : P.next c r = (c', .throw e) → Behaves P c r [.stop (some e)]

/-- `Q` describes code that only works, co_yields and ends. Specification of user code, no counterpart in /repo. -/
def Leaf (P : Prog σ V E) (Q : σ → Resp V E → Prop) : Prop :=
  ∀ c r, Q c r → (∃ c' n, P.next c r = (c', .api (.work n)) ∧ Q c' .unit) ∨
    (∃ c' v, P.next c r = (c', .yield v) ∧ Q c' (.resumed v)) ∨ (∃ c', P.next c r = (c', .ret)) ∨ ∃ c' e, P.next c r = (c', .throw e)

/-- The code from `b`, told `r0`, has put out `l` and is now at `c`, told `r`. -/
inductive Reach (P : Prog σ V E) (b : σ) (r0 : Resp V E) : List (Out V E) → σ → Resp V E → Prop
  | here : Reach P b r0 [] b r0
  | work {l c r c' n} : Reach P b r0 l c r → P.next c r = (c', .api (.work n)) → Reach P b r0 l c' .unit
  | yield {l c r c' v} : Reach P b r0 l c r → P.next c r = (c', .yield v) → Reach P b r0 (l ++ [.val v]) c' (.resumed v)

theorem Reach.behaves {P : Prog σ V E} {b : σ} {r0 : Resp V E} {l : List (Out V E)} {c : σ} {r : Resp V E} (h : Reach P b r0 l c r)
    {m : List (Out V E)} (hm : Behaves P c r m) : Behaves P b r0 (l ++ m) := by
  induction h generalizing m with
  | here => exact hm
  | work _ hn ih => exact ih (.work hn hm)
  | yield _ hn ih => rw [List.append_assoc]; exact ih (.yield hn hm)

/-- Where the code of a source can be. -/
def LeafAt (P : Prog σ V E) (Q : σ → Resp V E → Prop) (b : σ) (r0 : Resp V E) (x : Nat) (s : State σ V E) (n : List (Ev V E)) : Prop :=
  (∃ st r, Ctl s x st r ∧ Q st r ∧ Reach P b r0 (outs x n) st r) ∨ (s.fr x).status = .done ∧ Behaves P b r0 (outs x n)

theorem leaf_step (P : Prog σ V E) {Q : σ → Resp V E → Prop} (hQ : Leaf P Q) {b : σ} {r0 : Resp V E} {x : Nat} {s : State σ V E} {n l : List (Ev V E)} (op : Op σ V)
    (hi : Inv s) (hub : (step P s op).ub = none) (hx : x < s.nf) (h : LeafAt P Q b r0 x s n) (hl : (step P s op).log = s.log ++ l)
    (hC : StepCase s (step P s op) op l) (hp : ∀ v, Ev.poked x v ∉ l) : LeafAt P Q b r0 x (step P s op) (n ++ l) := by
  have hu := step_ub_none P s op hub
  by_cases h1 : op = .tick ∧ ∃ cc rest, s.stack = (x, cc) :: rest
  · obtain ⟨rfl, cc, rest, hs⟩ := h1
    have hrun : (s.fr x).status = .running := (hi.run x).2 (by simp [hs])
    rcases h with ⟨st, r, hc, hq, hR⟩ | ⟨hd, _⟩
    · have hr : (s.fr x).inp = r := by
        rcases hc.2 with h | h | h
        · exact h.2
        · simp [hrun] at h
        · simp [hrun] at h
      rcases hQ st r hq with ⟨c', m, hn, hq'⟩ | ⟨c', v, hn, hq'⟩ | ⟨c', hn⟩ | ⟨c', e, hn⟩
      · have e := step_tick P hu hs hc.1 hr hn
        have e' : step P s .tick = ((started s x c').emit (.work (some x) m)).reply .unit := by
          rw [e]; simp [State.body, State.api, started, State.emit, hs]
        obtain ⟨h1, h2, h3, h4, h5, h6⟩ := own_call hs (started s x c') rfl rfl rfl e' hl rfl (by simp)
        exact .inl ⟨c', .unit, ⟨h3, .inl ⟨⟨cc, rest, h2⟩, h4⟩⟩, hq', by rw [outs_append, h1]; simpa using hR.work hn⟩
      · obtain ⟨m2, m4, m7⟩ := own_yield P hi hu hs hc.1 hr hn hub hl
        exact .inl ⟨c', .resumed v, m4, hq', by rw [outs_append, m2]; exact hR.yield hn⟩
      · obtain ⟨m2, m4, m5⟩ := own_end P (.inl ⟨rfl, rfl⟩) hi hu hs hc.1 hr hn hub hl
        exact .inr ⟨m4, by rw [outs_append, m2]; exact hR.behaves (.ret hn)⟩
      · obtain ⟨m2, m4, m5⟩ := own_end P (.inr ⟨e, rfl, rfl⟩) hi hu hs hc.1 hr hn hub hl
        exact .inr ⟨m4, by rw [outs_append, m2]; exact hR.behaves (.throw hn)⟩
    · rw [hrun] at hd; cases hd
  · have h1' : op = .tick → ∀ cc rest, s.stack ≠ (x, cc) :: rest := fun e cc rest hs => h1 ⟨e, cc, rest, hs⟩
    have q := hC.quiet hx h1'
    rcases h with ⟨st, r, hc, hq, hR⟩ | ⟨hd, hB⟩
    · by_cases hs : ∃ cc rest, s.stack = (x, cc) :: rest
      · obtain ⟨cc, rest, hs⟩ := hs
        cases op with
        | tick => exact absurd hs (h1' rfl _ _)
        | main a =>
          have e1 := idle_main P hs a
          have e2 : l = [] := by
            rw [e1] at hl
            have := List.append_cancel_left (as := s.log) (bs := []) (cs := l) (by simpa using hl)
            exact this.symm
          rw [e1, e2, List.append_nil]
          exact .inl ⟨st, r, hc, hq, hR⟩
      · exact .inl ⟨st, r, hc.quiet hi q (fun cc rest h => hs ⟨cc, rest, h⟩) hp, hq, by rw [outs_append, q.outs]; simpa using hR⟩
    · refine .inr ⟨?_, by rw [outs_append, q.outs]; simpa using hB⟩
      rcases q.fr (fun p c' t' hs => by have := (hi.run x).2 (by simp [hs]); simp [hd] at this) with ⟨d, h1, _⟩ | ⟨k, r', _, _, _, h | h⟩ | ⟨v, hv⟩
      · rw [h1]; exact hd
      · simp [hd] at h
      · simp [hd] at h
      · exact absurd hv (hp v)

/-- C81. A source.  Once generator `x` with body `b` exists (not started), what it puts out, in an arbitrary history beside arbitrary other
code, is what its own code says – also if it never ends –, provided that nobody writes through its iterators. -/
theorem C81_source (P : Prog σ V E) (Q : σ → Resp V E → Prop) (hQ : Leaf P Q) (ops0 ops1 : List (Op σ V)) (x : Nat) (b : σ) (new : List (Ev V E))
    (hu : (exec P (ops0 ++ ops1)).ub = none) (hst : ((exec P ops0).fr x).st = some b) (hs : ((exec P ops0).fr x).status = .initial)
    (hb : Q b .start) (hlog : (exec P (ops0 ++ ops1)).log = (exec P ops0).log ++ new) (hp : Unwritten x new) :
    Behaves P b .start (outs x new) := by
  have key : LeafAt P Q b .start x (exec P (ops0 ++ ops1)) new ∧ x < (exec P (ops0 ++ ops1)).nf := by
    induction ops1 using snocInd generalizing new with
    | nil =>
      have : new = [] := by simpa using hlog
      subst this
      simp only [List.append_nil] at hu ⊢
      have hi := (good_exec P ops0).inv hu
      exact ⟨.inl ⟨b, .start, ⟨hst, .inr (.inl ⟨hs, rfl⟩)⟩, hb, .here⟩, (hi.born x).2 (by simp [hs])⟩
    | snoc ops op ih =>
      have e : exec P (ops0 ++ (ops ++ [op])) = step P (exec P (ops0 ++ ops)) op := by rw [← exec_snoc]; simp
      rw [e] at hu hlog ⊢
      have hu' := step_ub_none P _ _ hu
      have hi := (good_exec P (ops0 ++ ops)).inv hu'
      obtain ⟨l1, h1⟩ := exec_log_prefix P ops0 ops hu'
      obtain ⟨l2, h2, h3⟩ := step_case P hi op hu
      have hnew : new = l1 ++ l2 := by
        rw [h2, h1, List.append_assoc] at hlog
        exact (List.append_cancel_left hlog).symm
      subst hnew
      obtain ⟨a1, a2⟩ := ih l1 hu' h1 (fun v hm => hp v (by simp [hm]))
      have hnf := h3.nf
      exact ⟨leaf_step P hQ op hi hu a2 a1 h2 h3 (fun v hm => hp v (by simp [hm])), by omega⟩
  rcases key.1 with ⟨st, r, _, _, hR⟩ | ⟨_, hB⟩
  · simpa using hR.behaves (.now st r)
  · exact hB

theorem Behaves.emits {P : Prog σ V E} {c : σ} {r : Resp V E} {vs : List V} {f : Option E} (hE : Emits P c r vs f) {l : List (Out V E)} (h : Behaves P c r l) :
    l <+: stream (vs, f) := by
  induction hE generalizing l with
  | work hn _ ih =>
    cases h <;> (try rename_i h1) <;> (try simp_all [stream]) <;> (try rename_i h2) <;> (try simp_all [stream])
  | yield hn _ ih =>
    cases h <;> (try rename_i h1) <;> (try simp_all [stream]) <;> (try rename_i h2) <;> (try simp_all [stream])
    all_goals exact ih h2
  | ret hn => cases h <;> (try rename_i h1) <;> (try simp_all [stream]) <;> (try rename_i h2) <;> (try simp_all [stream])
  | throw hn => cases h <;> (try rename_i h1) <;> (try simp_all [stream]) <;> (try rename_i h2) <;> (try simp_all [stream])

theorem leaf_emits (P : Prog σ V E) : Leaf P (fun b r => ∃ vs f, Emits P b r vs f) := by
  rintro c r ⟨vs, f, h⟩
  cases h with
  | work hn h => exact .inl ⟨_, _, hn, _, _, h⟩
  | yield hn h => exact .inr (.inl ⟨_, _, hn, _, _, h⟩)
  | ret hn => exact .inr (.inr (.inl ⟨_, hn⟩))
  | throw hn => exact .inr (.inr (.inr ⟨_, _, hn⟩))

/-- `Pipe P ops x w`: in the run `ops`, generator `x` is the end of a chain of range-for loops over generators, and if every one runs to its end,
`x` co_yields `w.1` and ends with `w.2`.
`source`: a generator coroutine `x` that, when it is called, is to co_yield `w.1` and end with `w.2` (any work in between).
`stage`: at some time the body of `c` calls begin() of an object that holds `g`, in code that computes `K`; neither of the two has put out
anything before, nobody else advances `g` from there on.  Nobody writes through the iterators. Specification, no counterpart in /repo. -/
inductive Pipe (P : Prog σ V E) (ops : List (Op σ V)) : Nat → List V × Option E → Prop
  | source (x : Nat) (w : List V × Option E) (b : σ) (ops0 ops1 : List (Op σ V)) : ops = ops0 ++ ops1 → ((exec P ops0).fr x).st = some b →
      ((exec P ops0).fr x).status = .initial → outs x (exec P ops0).log = [] → Emits P b .start w.1 w.2 → Unwritten x (exec P ops).log → Pipe P ops x w
  | stage (c g o : Nat) (w : List V × Option E) {τ : Type} (K : Stage τ V E) (S : IsStage P K) (t : τ) (st : σ) (cc : Call) (rest : List (Nat × Call))
      (ops0 ops1 : List (Op σ V)) (new : List (Ev V E)) : Pipe P ops g w → ops = ops0 ++ .tick :: ops1 → (exec P ops0).stack = (c, cc) :: rest →
      ((exec P ops0).fr c).st = some st → P.next st ((exec P ops0).fr c).inp = (S.first t, .api (.begin o)) → (exec P ops0).obj o = .live (some g) →
      outs g (exec P ops0).log = [] → outs c (exec P ops0).log = [] →
      (exec P ops).log = (exec P ops0).log ++ new → OnlyBy c g new → Unwritten g new → Unwritten c new → Pipe P ops c (K.apply t w.1 w.2)

/-- C81. A pipeline of generators of any length, beside arbitrary other code, in every schedule: what its last member puts out is at any time a
part of what the loop bodies, applied one after the other to the values of the source, make of them; and all of it once it has ended. -/
theorem C81_pipeline (P : Prog σ V E) (ops : List (Op σ V)) (hu : (exec P ops).ub = none) (x : Nat) (w : List V × Option E) (h : Pipe P ops x w) :
    outs x (exec P ops).log <+: stream w ∧ (∀ f, .stop f ∈ outs x (exec P ops).log → outs x (exec P ops).log = stream w ∧ f = w.2) := by
  have key : outs x (exec P ops).log <+: stream w := by
    induction h with
    | source x w b ops0 ops1 e hst hs h0 hE hp =>
      subst e
      obtain ⟨new, hl⟩ := exec_log_prefix P ops0 ops1 hu
      have hB := C81_source P _ (leaf_emits P) ops0 ops1 x b new hu hst hs ⟨_, _, hE⟩ hl (fun v hm => hp v (by rw [hl]; simp [hm]))
      rw [hl, outs_append, h0]
      exact Behaves.emits hE hB
    | stage c g o w K S t st cc rest ops0 ops1 new hg e hs hst hn ho h0 h1 hl hal hpg hpc ih =>
      subst e
      have hT := C81_stage P K S ops0 ops1 c g o t st cc rest new hu hs hst hn ho hl hal hpg hpc
      rw [hl, outs_append, h0] at ih
      rw [hl, outs_append, h1]
      exact hT.apply ih
  refine ⟨key, fun f hf => ?_⟩
  have e := prefix_stream key hf
  refine ⟨e, ?_⟩
  rw [e] at hf
  simpa [stream] using hf

end QCoro.Gen
