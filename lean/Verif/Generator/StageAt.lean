import Verif.Generator.Pipeline
/-! C81: where a stage of a pipeline of synchronous generators can be, and what the steps of others and of its source do to it. -/
set_option linter.unusedSimpArgs false
namespace QCoro.Gen
open QCoro.AGen (Out Stage stream)
variable {σ V E τ : Type}

/-- The coroutine goes on in state `st`, told `r`: now, or when its consumer resumes it. -/
def Ctl (s : State σ V E) (c : Nat) (st : σ) (r : Resp V E) : Prop :=
  (s.fr c).st = some st ∧ ((∃ cc rest, s.stack = (c, cc) :: rest) ∧ (s.fr c).inp = r ∨ (s.fr c).status = .initial ∧ r = .start ∨
    (s.fr c).status = .yielded ∧ ∃ w, (s.fr c).value = some w ∧ r = .resumed w)

/-- The coroutine is not inside a call of begin() or ++ of its own. -/
theorem Ctl.notSecond {s : State σ V E} (hi : Inv s) {c : Nat} {st : σ} {r : Resp V E} (h : Ctl s c st r) (p : Nat × Call) (cc : Call) (t : List (Nat × Call)) :
    s.stack ≠ p :: (c, cc) :: t := by
  intro hs
  have hrun : (s.fr c).status = .running := (hi.run c).2 (by simp [hs])
  rcases h.2 with ⟨⟨cc', rest, h⟩, _⟩ | ⟨h, _⟩ | ⟨h, _⟩
  · have := hi.nodup
    rw [hs] at h this; cases h
    simp at this
  · simp [hrun] at h
  · simp [hrun] at h

theorem Ctl.quiet {s s' : State σ V E} {l : List (Ev V E)} {c : Nat} {st : σ} {r : Resp V E} (h : Ctl s c st r) (hi : Inv s) (hq : Quiet c s s' l)
    (hn : ∀ cc rest, s.stack ≠ (c, cc) :: rest) (hp : ∀ v, Ev.poked c v ∉ l) : Ctl s' c st r := by
  have h2 : (s.fr c).status = .initial ∧ r = .start ∨ (s.fr c).status = .yielded ∧ ∃ w, (s.fr c).value = some w ∧ r = .resumed w := by
    rcases h.2 with ⟨⟨cc', rest, h⟩, _⟩ | h
    · exact absurd h (hn _ _)
    · exact h
  rcases hq.fr (h.notSecond hi) with ⟨d, h1, _⟩ | ⟨k, r', _, h1, hs, h3⟩ | ⟨v, hv⟩
  · refine ⟨by rw [h1]; exact h.1, .inr ?_⟩
    rw [h1]; exact h2
  · refine ⟨by rw [h1]; exact h.1, .inl ⟨⟨k, _, hs⟩, ?_⟩⟩
    rw [h1]
    rcases h2 with ⟨h2, rfl⟩ | ⟨h2, w, hw, rfl⟩
    · rcases h3 with ⟨_, h3⟩ | ⟨h3, _⟩
      · exact h3
      · simp [h2] at h3
    · rcases h3 with ⟨h3, _⟩ | ⟨_, v, hv, h3⟩
      · simp [h2] at h3
      · rw [hw] at hv; cases hv; exact h3
  · exact absurd hv (hp v)

/-- A generator that is parked stays so while somebody else acts. -/
theorem Quiet.parked {s s' : State σ V E} {l : List (Ev V E)} {x : Nat} (hi : Inv s) (hq : Quiet x s s' l) (hs : (s.fr x).status = .yielded ∨ (s.fr x).status = .done)
    (hp : ∀ v, Ev.poked x v ∉ l) (ha : ∀ c v, Ev.adv x c v ∉ l) : (s'.fr x).status = (s.fr x).status ∧ (s'.fr x).value = (s.fr x).value := by
  have hn : ∀ p c t, s.stack ≠ p :: (x, c) :: t := by
    intro p c t h
    have := (hi.run x).2 (by simp [h])
    simp [this] at hs
  rcases hq.fr hn with ⟨d, h1, _⟩ | ⟨k, r', h, _⟩ | ⟨v, hv⟩
  · rw [h1]; exact ⟨rfl, rfl⟩
  · exact absurd h (ha _ _)
  · exact absurd hv (hp v)

/-- A running generator that is deeper in the stack is left alone. -/
theorem Quiet.deep {s s' : State σ V E} {l : List (Ev V E)} {x : Nat} (hq : Quiet x s s' l) (hs : (s.fr x).status = .running)
    (hn : ∀ p c t, s.stack ≠ p :: (x, c) :: t) (hp : ∀ v, Ev.poked x v ∉ l) : s'.fr x = s.fr x := by
  rcases hq.fr hn with ⟨d, h1, h2⟩ | ⟨k, r', _, _, _, h | h⟩ | ⟨v, hv⟩
  · rw [h1, h2 hs]
  · simp [hs] at h
  · simp [hs] at h
  · exact absurd hv (hp v)

/-- What the caller of begin() or ++ gets back. -/
theorem after_back {s : State σ V E} {g c : Nat} {cc call : Call} {rest : List (Nat × Call)} (hs : s.stack = (c, cc) :: rest) (hne : c ≠ g)
    (hinc : ∀ i, call = .inc i → s.it i = some (some g)) (hub : (s.after g call).ub = none) :
    ∃ r, (s.after g call).fr c = { s.fr c with inp := r } ∧ (s.after g call).fr g = s.fr g ∧
      (∀ v, (s.fr g).value = some v → ∃ i, r = .iter i ∧ (s.after g call).it i = some (some g) ∧ ∀ i', call = .inc i' → i' = i) ∧
      (∀ e, (s.fr g).value = none → (s.fr g).exc = some e → r = .threw e) ∧
      ((s.fr g).value = none → (s.fr g).exc = none → ∃ i, r = .iter i ∧ (s.after g call).it i = some none ∧ ∀ i', call = .inc i' → i' = i) := by
  cases call with
  | inc i =>
    have hit := hinc i rfl
    simp only [State.after, State.afterInc, hit] at hub ⊢
    split at hub
    · simp [State.fail] at hub
    · rename_i hf
      rw [if_neg hf]
      cases hv : (s.fr g).value with
      | some v =>
        refine ⟨.iter i, ?_⟩
        simp [hv, State.emit, State.reply, hs, hit, upd_other _ _ (Ne.symm hne)]
      | none =>
        cases he : (s.fr g).exc with
        | some e =>
          refine ⟨.threw e, ?_⟩
          simp [hv, he, State.emit, State.reply, hs, hit, upd_other _ _ (Ne.symm hne)]
        | none =>
          refine ⟨.iter i, ?_⟩
          simp [hv, he, State.emit, State.reply, hs, hit, upd_other _ _ (Ne.symm hne)]
  | begin o =>
    simp only [State.after, State.afterBegin] at hub ⊢
    split at hub
    · rename_i h hh
      split at hub
      · simp [State.fail] at hub
      · rename_i hg
        have hg : h = g := by simpa using hg
        subst hg
        split at hub
        · simp [State.fail] at hub
        · rename_i hf
          have hf' : (s.fr h).freed = false := by simpa using hf
          cases hv : (s.fr h).value with
          | some v =>
            refine ⟨.iter s.ni, ?_⟩
            simp [hh, hv, hf', State.emit, State.reply, hs, upd_other _ _ (Ne.symm hne)]
          | none =>
            cases he : (s.fr h).exc with
            | some e =>
              refine ⟨.threw e, ?_⟩
              simp [hh, hv, he, hf', State.emit, State.reply, hs, upd_other _ _ (Ne.symm hne)]
            | none =>
              refine ⟨.iter s.ni, ?_⟩
              simp [hh, hv, he, hf', State.emit, State.reply, hs, upd_other _ _ (Ne.symm hne)]
    · simp [State.fail] at hub
    · simp [State.fail] at hub

/-- After begin() or ++ returned and before the comparison. -/
def Pos {P : Prog σ V E} {K : Stage τ V E} (S : IsStage P K) (s : State σ V E) (c : Nat) (t : τ) (i : Nat) : Prop :=
  (∃ cc rest, s.stack = (c, cc) :: rest) ∧
  ((s.fr c).st = some (S.first t) ∧ (s.fr c).inp = .iter i ∨ (∃ j, (s.fr c).st = some (S.made t i) ∧ (s.fr c).inp = .iter j ∧ s.it j = some none) ∨
    ∃ j, (s.fr c).st = some (S.loop t i j) ∧ (s.fr c).inp = .iter i ∧ s.it j = some none)

/-- Where the stage waits for its source. -/
def Head {P : Prog σ V E} {K : Stage τ V E} (S : IsStage P K) (s : State σ V E) (t : τ) (st : σ) (k : Call) : Prop :=
  (st = S.first t ∧ ∃ o, k = .begin o) ∨ ∃ i j, st = S.loop t i j ∧ k = .inc i ∧ s.it j = some none

/-- Where a stage of a pipeline can be. -/
inductive At (K : Stage τ V E) (P : Prog σ V E) (S : IsStage P K) (c g : Nat) (t0 : τ) (s : State σ V E) (n : List (Ev V E)) : Prop
  | wait (t : τ) (vs zs : List V) (k : Call) (st : σ) (pre : List (Nat × Call)) (cc : Call) (rest : List (Nat × Call)) : K.Ran t0 vs t zs →
      s.stack = pre ++ (g, k) :: (c, cc) :: rest → (s.fr c).st = some st → Head S s t st k →
      outs g n = vs.map .val → outs c n = zs.map .val → At K P S c g t0 s n
  | got (t : τ) (vs zs : List V) (i : Nat) (v : V) : K.Ran t0 vs t zs →
      (Pos S s c t i ∨ (∃ cc rest, s.stack = (c, cc) :: rest) ∧ ∃ j, (s.fr c).st = some (S.test t i j) ∧ (s.fr c).inp = .flag false ∧ s.it j = some none) →
      s.it i = some (some g) → (s.fr g).status = .yielded → (s.fr g).value = some v →
      outs g n = (vs ++ [v]).map .val → outs c n = zs.map .val → At K P S c g t0 s n
  | body (t : τ) (vs zs : List V) (i j : Nat) (v : V) (st : σ) (r : Resp V E) (done rest : List V) (q : τ ⊕ Option E) : K.Ran t0 vs t zs →
      Ctl s c st r → InBody P i st r rest (match q with | .inl t' => .inl (S.loop t' i j) | .inr f => .inr f) →
      K.body t v = (done ++ rest, q) → s.it i = some (some g) → s.it j = some none → (s.fr g).status = .yielded →
      outs g n = (vs ++ [v]).map .val → outs c n = (zs ++ done).map .val → At K P S c g t0 s n
  | ended (t : τ) (vs zs : List V) (i : Nat) : K.Ran t0 vs t zs → Pos S s c t i → s.it i = some none → (s.fr g).status = .done →
      outs g n = vs.map .val ++ [.stop none] → outs c n = zs.map .val → At K P S c g t0 s n
  | tail (t : τ) (vs zs : List V) (f : Option E) (w : List V × Option E) (st : σ) (r : Resp V E) (done rest : List V) : K.Ran t0 vs t zs →
      Ctl s c st r → Emits P st r rest w.2 → w.1 = done ++ rest → (f = none ∧ w = K.fin t ∨ ∃ e, f = some e ∧ w = K.fail t e) →
      (s.fr g).status = .done → outs g n = vs.map .val ++ [.stop f] → outs c n = (zs ++ done).map .val → At K P S c g t0 s n
  | over : (s.fr c).status = .done → ((s.fr g).status = .yielded ∨ (s.fr g).status = .done) → K.Through t0 (outs g n) (outs c n) →
      At K P S c g t0 s n

theorem idle_main (P : Prog σ V E) {s : State σ V E} {p : Nat × Call} {t : List (Nat × Call)} (hs : s.stack = p :: t) (a : Api σ V) : step P s (.main a) = s := by
  by_cases hu : s.ub.isSome = true
  · simp [step, hu]
  · simp [step, hu, hs]

theorem outs_three {x k : Nat} {y e : Ev V E} (h : out x e = none) : outs x [.ran k, y, e] = (out x y).toList := by
  rw [show ([Ev.ran k, y, e] : List (Ev V E)) = [.ran k] ++ ([y] ++ [e]) from rfl, outs_append, outs_append, outs_one h]
  have h1 : outs x [y] = (out x y).toList := by
    simp only [outs, List.filterMap_cons, List.filterMap_nil]; cases out x y <;> rfl
  rw [h1, List.append_nil]; rfl

/-- Somebody other than `c` acts and, if `c` waits for `g`, other than `g`. -/
theorem at_other (P : Prog σ V E) (K : Stage τ V E) (S : IsStage P K) {c g : Nat} {t0 : τ} {s : State σ V E} {n l : List (Ev V E)} (op : Op σ V)
    (hi : Inv s) (hc : c < s.nf) (hg : g < s.nf)
    (h : At K P S c g t0 s n) (hl : StepCase s (step P s op) op l) (h1 : op = .tick → ∀ cc rest, s.stack ≠ (c, cc) :: rest)
    (h2 : op = .tick → ∀ k cc rest, s.stack ≠ (g, k) :: (c, cc) :: rest)
    (hadv : ∀ call v, Ev.adv g call v ∉ l) (hpg : ∀ v, Ev.poked g v ∉ l) (hpc : ∀ v, Ev.poked c v ∉ l) :
    At K P S c g t0 (step P s op) (n ++ l) := by
  have qc := hl.quiet hc h1
  have itk : ∀ i h, (h = none ∨ h = some g ∧ (s.fr g).status ≠ .running) → s.it i = some h → (step P s op).it i = some h := by
    intro i h hh hit
    refine hl.it hit ?_
    intro ht k t hs
    have := hi.inc k i (by simp [hs])
    rw [hit] at this
    rcases hh with rfl | ⟨rfl, hr⟩
    · cases this
    · cases this; exact hr ((hi.run g).2 (by simp [hs]))
  have gtop : (s.fr g).status ≠ .running → op = .tick → ∀ k rest, s.stack ≠ (g, k) :: rest := by
    intro hn _ k rest hs
    exact hn ((hi.run g).2 (by simp [hs]))
  have pg : ((s.fr g).status = .yielded ∨ (s.fr g).status = .done) →
      ((step P s op).fr g).status = (s.fr g).status ∧ ((step P s op).fr g).value = (s.fr g).value ∧ outs g l = [] := by
    intro hs
    have hn : (s.fr g).status ≠ .running := by rcases hs with h | h <;> simp [h]
    have qg := hl.quiet hg (gtop hn)
    exact ⟨(qg.parked hi hs hpg hadv).1, (qg.parked hi hs hpg hadv).2, qg.outs⟩
  have idle : (∃ cc rest, s.stack = (c, cc) :: rest) → step P s op = s ∧ l = [] := by
    rintro ⟨cc, rest, hs⟩
    cases op with
    | tick => exact absurd hs (h1 rfl _ _)
    | main a =>
      refine ⟨idle_main P hs a, ?_⟩
      cases hl with
      | idle _ => rfl
      | main _ h => rw [hs] at h; cases h
      | call _ _ _ _ _ h => cases h
      | leave _ _ _ _ _ h => cases h
  have keep : (∃ cc rest, s.stack = (c, cc) :: rest) → At K P S c g t0 (step P s op) (n ++ l) := by
    intro hs
    obtain ⟨e1, e2⟩ := idle hs
    rw [e1, e2, List.append_nil]; exact h
  have ctl : ∀ {st r}, Ctl s c st r → (∀ cc rest, s.stack ≠ (c, cc) :: rest) → Ctl (step P s op) c st r := fun hh hn => hh.quiet hi qc hn hpc
  cases h with
  | wait t vs zs k st pre cc rest a1 a2 a3 a4 a5 a6 =>
    have crun : (s.fr c).status = .running := (hi.run c).2 (by simp [a2])
    have nd := hi.nodup
    cases pre with
    | nil =>
      -- only an operation of the main program, which has to wait
      cases op with
      | tick => exact absurd a2 (h2 rfl _ _ _)
      | main a =>
        have e1 : step P s (.main a) = s := idle_main P a2 a
        have e2 : l = [] := by
          cases hl with
          | idle _ => rfl
          | main _ h => rw [a2] at h; simp at h
          | call _ _ _ _ _ h => cases h
          | leave _ _ _ _ _ h => cases h
        rw [e1, e2, List.append_nil]
        exact .wait t vs zs k st [] cc rest a1 a2 a3 a4 a5 a6
    | cons p pre =>
      have hcg : c ≠ g := by
        rintro rfl; rw [a2] at nd; simp [List.nodup_append] at nd
      have hnc : ∀ p' c' t', s.stack ≠ p' :: (c, c') :: t' := by
        intro p' c' t' hs
        rw [a2] at hs
        cases pre with
        | nil => simp at hs; exact hcg hs.2.1.1.symm
        | cons x pre =>
          simp at hs
          rw [a2] at nd
          rw [hs.2.1] at nd
          simp [List.nodup_append] at nd
      have hfc := qc.deep crun hnc hpc
      have hog : outs g l = [] := by
        refine (hl.quiet hg (fun _ k' t' hs => ?_)).outs
        rw [a2] at hs
        simp at hs
        rw [a2, hs.1] at nd
        simp [List.nodup_append] at nd
      have hh : Head S (step P s op) t st k := by
        rcases a4 with h | ⟨i, j, e1, e2, e3⟩
        · exact .inl h
        · exact .inr ⟨i, j, e1, e2, itk j none (.inl rfl) e3⟩
      have fin : ∀ pre', (step P s op).stack = pre' ++ (g, k) :: (c, cc) :: rest → At K P S c g t0 (step P s op) (n ++ l) := by
        intro pre' hs
        refine .wait t vs zs k st pre' cc rest a1 hs (by rw [hfc]; exact a3) hh ?_ ?_
        · rw [outs_append, hog, a5]; simp
        · rw [outs_append, qc.outs, a6]; simp
      rcases hl.stack a2 with h | h | ⟨y, h⟩
      · exact fin pre h
      · exact fin (p :: pre) h
      · exact fin (y :: p :: pre) h
  | got t vs zs i v a1 a2 a3 a4 a5 a6 a7 =>
    refine keep ?_
    rcases a2 with ⟨h, _⟩ | ⟨h, _⟩ <;> exact h
  | ended t vs zs i a1 a2 a3 a4 a5 a6 => exact keep a2.1
  | body t vs zs i j v st r done rest q a1 a2 a3 a4 a5 a6 a7 a8 a9 =>
    by_cases hs : ∃ cc rest, s.stack = (c, cc) :: rest
    · exact keep hs
    · have kg := pg (.inl a7)
      refine .body t vs zs i j v st r done rest q a1 (ctl a2 (fun cc rest h => hs ⟨cc, rest, h⟩)) a3 a4 (itk i _ (.inr ⟨rfl, by simp [a7]⟩) a5)
        (itk j _ (.inl rfl) a6) (by rw [kg.1]; exact a7) ?_ ?_
      · rw [outs_append, kg.2.2, a8]; simp
      · rw [outs_append, qc.outs, a9]; simp
  | tail t vs zs f w st r done rest a1 a2 a3 a4 a5 a6 a7 a8 =>
    by_cases hs : ∃ cc rest, s.stack = (c, cc) :: rest
    · exact keep hs
    · have kg := pg (.inr a6)
      refine .tail t vs zs f w st r done rest a1 (ctl a2 (fun cc rest h => hs ⟨cc, rest, h⟩)) a3 a4 a5 (by rw [kg.1]; exact a6) ?_ ?_
      · rw [outs_append, kg.2.2, a7]; simp
      · rw [outs_append, qc.outs, a8]; simp
  | over a1 a2 a3 =>
    have kg := pg a2
    have hs : ((step P s op).fr c).status = .done := by
      rcases qc.fr (fun p c' t' hs => by have := (hi.run c).2 (by simp [hs]); simp [a1] at this) with ⟨d, h1, _⟩ | ⟨k, r', _, _, _, h | h⟩ | ⟨v, hv⟩
      · rw [h1]; exact a1
      · simp [a1] at h
      · simp [a1] at h
      · exact absurd hv (hpc v)
    refine .over hs (by rw [kg.1]; exact a2) ?_
    rw [outs_append, outs_append, kg.2.2, qc.outs]; simpa using a3

/-- The source acts while the stage waits for it. -/
theorem at_source (P : Prog σ V E) (K : Stage τ V E) (S : IsStage P K) {c g : Nat} {t0 : τ} {s : State σ V E} {n l : List (Ev V E)}
    (hi : Inv s) (hu : s.ub = none) (hub : (step P s .tick).ub = none) (hne : c ≠ g) {cc k : Call} {rest : List (Nat × Call)}
    (hs : s.stack = (g, k) :: (c, cc) :: rest) {t : τ} {vs zs : List V} {st : σ} (hR : K.Ran t0 vs t zs) (hst : (s.fr c).st = some st) (hH : Head S s t st k)
    (hY : outs g n = vs.map .val) (hZ : outs c n = zs.map .val) (hl : (step P s .tick).log = s.log ++ l)
    (hc : c < s.nf) (hpc : ∀ v, Ev.poked c v ∉ l) : At K P S c g t0 (step P s .tick) (n ++ l) := by
  have hrun : (s.fr g).status = .running := (hi.run g).2 (by simp [hs])
  have crun : (s.fr c).status = .running := (hi.run c).2 (by simp [hs])
  obtain ⟨b, hb⟩ := Option.isSome_iff_exists.1 ((hi.wf g).st (by simp [hrun]))
  have hgf := ((hi.wf g).run hrun).2
  have hex := ((hi.wf g).run hrun).1
  have hinc : ∀ i, k = .inc i → s.it i = some (some g) := by rintro i rfl; exact hi.inc g i (by simp [hs])
  have hpair : P.next b (s.fr g).inp = ((P.next b (s.fr g).inp).1, (P.next b (s.fr g).inp).2) := rfl
  generalize (P.next b (s.fr g).inp).1 = b1 at hpair
  generalize (P.next b (s.fr g).inp).2 = a at hpair
  have hstep := step_tick P hu hs hb rfl hpair
  have cancel : ∀ m, (step P s .tick).log = s.log ++ m → l = m := fun m hm => by rw [hl] at hm; exact List.append_cancel_left hm
  have fc : (started s g b1).fr c = s.fr c := by simp [started, State.emit, upd_other _ _ hne]
  have notinc : ∀ i j, k = .inc i → s.it j = some none → k ≠ .inc j := by
    rintro i j rfl hj h; cases h; rw [hinc _ rfl] at hj; cases hj
  -- leaving `g`
  have leave : ∀ (f : Frame σ V E) (y : Ev V E), step P s .tick = (({ started s g b1 with fr := upd (started s g b1).fr g f, stack := (c, cc) :: rest } : State σ V E).emit y).after g k →
      out c y = none →
      ∃ e r, l = [.ran g, y, e] ∧ (∀ x, out x e = none) ∧ (step P s .tick).stack = (c, cc) :: rest ∧ ((step P s .tick).fr g) = f ∧
      (step P s .tick).fr c = { s.fr c with inp := r } ∧ (∀ j, s.it j = some none → k ≠ .inc j → (step P s .tick).it j = some none) ∧
      (∀ v, f.value = some v → ∃ i, r = .iter i ∧ (step P s .tick).it i = some (some g) ∧ ∀ i', k = .inc i' → i' = i) ∧
      (∀ e, f.value = none → f.exc = some e → r = .threw e) ∧
      (f.value = none → f.exc = none → ∃ i, r = .iter i ∧ (step P s .tick).it i = some none ∧ ∀ i', k = .inc i' → i' = i) := by
    intro f y he hy
    have hub' := hub
    rw [he] at hub'
    obtain ⟨e, h1, h2, h3, h4, h5, h6, h7, h8, h9⟩ := after_effect (by simpa [State.emit, started] using hi.itB) hub'
    obtain ⟨r, k1, k2, k3, k4, k5⟩ := after_back (s := (({ started s g b1 with fr := upd (started s g b1).fr g f, stack := (c, cc) :: rest } : State σ V E).emit y)) (c := c) (cc := cc) (rest := rest) rfl hne hinc hub'
    have hgv : (({ started s g b1 with fr := upd (started s g b1).fr g f, stack := (c, cc) :: rest } : State σ V E).emit y).fr g = f := by simp [State.emit]
    have hcv : (({ started s g b1 with fr := upd (started s g b1).fr g f, stack := (c, cc) :: rest } : State σ V E).emit y).fr c = s.fr c := by
      simp only [State.emit, upd_other _ _ hne]; exact fc
    rw [hgv] at k2 k3 k4 k5
    rw [hcv] at k1
    rw [← he] at h1 h6 h8 k1 k2 k3 k5
    refine ⟨e, r, cancel _ (by rw [h1]; simp [State.emit, started]), h2, h6, k2, k1, ?_, k3, k4, k5⟩
    intro j hj hk
    exact h8 j none hj hk
  have pos : ∀ i r, (step P s .tick).stack = (c, cc) :: rest → (step P s .tick).fr c = { s.fr c with inp := r } → r = .iter i →
      (∀ j, s.it j = some none → k ≠ .inc j → (step P s .tick).it j = some none) → (∀ i', k = .inc i' → i' = i) → Pos S (step P s .tick) c t i := by
    intro i r p1 p2 p3 p4 p5
    refine ⟨⟨cc, rest, p1⟩, ?_⟩
    rw [p2]
    rcases hH with ⟨e1, o, e2⟩ | ⟨i0, j, e1, e2, e3⟩
    · subst e1; exact .inl ⟨hst, p3⟩
    · subst e1
      have := p5 i0 e2
      subst this
      exact .inr (.inr ⟨j, hst, p3, p4 j e3 (notinc i0 j e2 e3)⟩)
  cases a with
  | api a =>
    have he : step P s .tick = (started s g b1).api a := hstep
    rw [he] at hub
    obtain ⟨ev, h⟩ := api_effect (started_inv hi hrun b1) a hub
    rw [← he] at h
    have hm : l = [.ran g, ev] := cancel _ (by rw [h.log]; simp [started, State.emit])
    have hst' : (started s g b1).stack = s.stack := rfl
    have hfc : (step P s .tick).fr c = s.fr c := by
      rcases h.fr c hc (by rw [hst', hs]; intro k' t' h'; cases h'; exact hne rfl) with ⟨d, h1, h2⟩ | ⟨k, r', _, _, _, h | h⟩ | ⟨v, hv⟩
      · rw [fc] at h1 h2; rw [h1, h2 crun]
      · simp [fc, crun] at h
      · simp [fc, crun] at h
      · exact absurd (by rw [hm, hv]; simp) (hpc v)
    have hout : ∀ x, outs x l = [] := by
      intro x; rw [hm]
      have : outs x [.ran g, ev] = outs x [ev] := by simp [outs, out, List.filterMap_cons]
      rw [this]; exact outs_one (h.out x)
    have hh : Head S (step P s .tick) t st k := by
      rcases hH with h' | ⟨i, j, e1, e2, e3⟩
      · exact .inl h'
      · exact .inr ⟨i, j, e1, e2, h.it j _ e3⟩
    have fin : ∀ pre', (step P s .tick).stack = pre' ++ (g, k) :: (c, cc) :: rest → At K P S c g t0 (step P s .tick) (n ++ l) := by
      intro pre' hs'
      refine .wait t vs zs k st pre' cc rest hR hs' (by rw [hfc]; exact hst) hh ?_ ?_
      · rw [outs_append, hout, hY]; simp
      · rw [outs_append, hout, hZ]; simp
    rcases h.stack with h' | ⟨g', c', v', _, h'⟩
    · exact fin [] (by rw [h', hst', hs]; rfl)
    · exact fin [(g', c')] (by rw [h', hst', hs]; rfl)
  | yield v =>
    obtain ⟨e, r, k1, k2, k3, k4, k5, k6, k7, k8, k9⟩ := leave { (started s g b1).fr g with value := some v, status := .yielded } (.yielded g v) hstep (by simp [out, Ne.symm hne])
    obtain ⟨i, r1, r2, r3⟩ := k7 v rfl
    refine .got t vs zs i v hR (.inl (pos i r k3 k5 r1 k6 r3)) r2 (by rw [k4]) (by rw [k4]) ?_ ?_
    · rw [outs_append, hY, k1, outs_three (k2 _)]; simp [out]
    · rw [outs_append, hZ, k1, outs_three (k2 _)]; simp [out, Ne.symm hne]
  | ret =>
    obtain ⟨e, r, k1, k2, k3, k4, k5, k6, k7, k8, k9⟩ := leave { (started s g b1).fr g with value := none, status := .done } (.returned g) hstep (by simp [out, Ne.symm hne])
    obtain ⟨i, r1, r2, r3⟩ := k9 rfl (by simpa [started, State.emit] using hex)
    refine .ended t vs zs i hR (pos i r k3 k5 r1 k6 r3) r2 (by rw [k4]) ?_ ?_
    · rw [outs_append, hY, k1, outs_three (k2 _)]; simp [out]
    · rw [outs_append, hZ, k1, outs_three (k2 _)]; simp [out, Ne.symm hne]
  | throw x =>
    obtain ⟨e, r, k1, k2, k3, k4, k5, k6, k7, k8, k9⟩ := leave { (started s g b1).fr g with exc := some x, value := none, status := .done } (.raised g x) hstep (by simp [out, Ne.symm hne])
    have r1 := k8 x rfl rfl
    subst r1
    have hF : Emits P st (.threw x) (K.fail t x).1 (K.fail t x).2 := by
      rcases hH with ⟨e1, _⟩ | ⟨i, j, e1, _⟩
      · rw [e1]; exact S.hFail0 t x
      · rw [e1]; exact S.hFail t i j x
    refine .tail t vs zs (some x) (K.fail t x) st (.threw x) [] (K.fail t x).1 hR ⟨by rw [k5]; exact hst, .inl ⟨⟨cc, rest, k3⟩, by rw [k5]⟩⟩ hF (by simp) (.inr ⟨x, rfl, rfl⟩) (by rw [k4]) ?_ ?_
    · rw [outs_append, hY, k1, outs_three (k2 _)]; simp [out]
    · rw [outs_append, hZ, k1, outs_three (k2 _)]; simp [out, Ne.symm hne]

end QCoro.Gen
