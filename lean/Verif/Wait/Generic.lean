import Verif.Wait.Helper
/-
What holds for every call of the shape of `Verif.Wait.Helper`.
-/
set_option linter.unusedSimpArgs false
namespace QCoro.Wait
open Sig (emissions answer)
variable {σ ρ δ β : Type}

theorem heard_append (a b : List (Op σ δ)) : heard (a ++ b) = heard a ++ if exists? a then heard b else [] := by
  induction a with
  | nil => simp [heard, exists?]
  | cons x a ih => cases x <;> simp_all [heard, exists?] <;> rfl

theorem exists_append (a b : List (Op σ δ)) : exists? (a ++ b) = (exists? a && exists? b) := by
  induction a with
  | nil => simp [exists?]
  | cons x a ih => cases x <;> simp_all [exists?]

theorem elapsed_append (a b : List (Op σ δ)) : elapsed (a ++ b) = elapsed a + elapsed b := by
  induction a with
  | nil => simp [elapsed]
  | cons x a ih => cases x <;> simp_all [elapsed]; omega

theorem noCross_append (a b : List (Op σ δ)) : noCross (a ++ b) = (noCross a && noCross b) := by
  induction a with
  | nil => simp [noCross]
  | cons x a ih => cases x with
    | sig x c => cases c <;> simp_all [noCross]
    | _ => simp_all [noCross]

theorem device_none (l : List (Op σ δ)) (h : exists? l = false) (d : Option δ) : device d l = none := by
  induction l generalizing d with
  | nil => simp [exists?] at h
  | cons x l ih => cases x <;> simp_all [exists?, device]

theorem device_append (d : Option δ) (a b : List (Op σ δ)) : device d (a ++ b) = if exists? a then device (device d a) b else none := by
  induction a generalizing d with
  | nil => simp [device, exists?]
  | cons x a ih => cases x <;> simp_all [device, exists?] <;> rfl

theorem device_isSome (d : δ) (l : List (Op σ δ)) : (device (some d) l).isSome = exists? l := by
  induction l generalizing d with
  | nil => rfl
  | cons x l ih => cases x <;> simp_all [device, exists?]

/-- The facts kept by every step. -/
structure Inv (h : Helper σ ρ) (k : Cont ρ δ β) (t : Int) (d : δ) (ops : List (Op σ δ)) (s : State σ ρ δ β) : Prop where
  sg : ∃ sops, (∀ th kd, Sig.Op.await th kd ∉ sops) ∧ s.sg = Sig.one t sops
  out : s.out = none ↔ answer s.sg.log = none
  pend : s.out = none → s.dev = device (some d) ops ∧ s.sg.alive = (!h.own || exists? ops) ∧ s.sg.now = elapsed ops
  sound : ∀ r ∈ emissions s.sg.log, ∃ x ∈ heard ops, ∃ c ∈ h.conns, c.react x = some r
  soundq : ∀ p ∈ s.hq, ∃ x ∈ heard ops, ∃ c, h.conns[p.1]? = some c ∧ c.react x = some p.2
  ownq : h.own = true → s.hq = []
  livee : emissions s.sg.log = [] → ∀ j, s.live j = true
  compl : s.out = none → ∀ x ∈ heard ops, h.hit x ≠ none → emissions s.sg.log ≠ [] ∨ s.hq ≠ []
  first : h.direct = true → noCross ops = true → s.hq = [] ∧
    (s.out = none → (emissions s.sg.log).head? = (heard ops).findSome? h.hit) ∧
    (∀ v, (emissions s.sg.log).head? = some v → (heard ops).findSome? h.hit = some v)

/-- What a change to the pending part preserves while connections are activated one after the other. -/
structure Act (t : Int) (s s' : State σ ρ δ β) : Prop where
  sg : (∃ sops, (∀ th kd, Sig.Op.await th kd ∉ sops) ∧ s.sg = Sig.one t sops) → ∃ sops, (∀ th kd, Sig.Op.await th kd ∉ sops) ∧ s'.sg = Sig.one t sops
  out : s'.out = s.out
  dev : s'.dev = s.dev
  ans : answer s'.sg.log = answer s.sg.log
  alive : s'.sg.alive = s.sg.alive
  now : s'.sg.now = s.sg.now
  livee : (emissions s.sg.log = [] → ∀ j, s.live j = true) → (emissions s'.sg.log = [] → ∀ j, s'.live j = true)
  em : ∃ l, emissions s'.sg.log = emissions s.sg.log ++ l

theorem Act.refl (t : Int) (s : State σ ρ δ β) : Act t s s := ⟨id, rfl, rfl, rfl, rfl, rfl, id, [], by simp⟩
theorem Act.trans {t : Int} {a b c : State σ ρ δ β} (h1 : Act t a b) (h2 : Act t b c) : Act t a c :=
  ⟨h2.sg ∘ h1.sg, h2.out.trans h1.out, h2.dev.trans h1.dev, h2.ans.trans h1.ans, h2.alive.trans h1.alive, h2.now.trans h1.now, h2.livee ∘ h1.livee,
   by obtain ⟨x, hx⟩ := h1.em; obtain ⟨y, hy⟩ := h2.em; exact ⟨x ++ y, by rw [hy, hx]; simp⟩⟩

def Single (t : Int) (s : State σ ρ δ β) : Prop := ∃ sops, (∀ th kd, Sig.Op.await th kd ∉ sops) ∧ s.sg = Sig.one t sops

theorem Single.ub {t : Int} {s : State σ ρ δ β} (h : Single t s) : s.sg.ub = none := by
  obtain ⟨so, h1, h2⟩ := h; rw [h2]; exact Sig.one_ub t so h1

theorem Single.step {t : Int} {s : State σ ρ δ β} (h : Single t s) (op : Sig.Op ρ) (hop : ∀ th kd, op ≠ .await th kd) :
    ∃ sops, (∀ th kd, Sig.Op.await th kd ∉ sops) ∧ Sig.step s.sg op = Sig.one t sops := by
  obtain ⟨so, h1, h2⟩ := h
  refine ⟨so ++ [op], ?_, ?_⟩
  · intro th kd hm
    rcases List.mem_append.mp hm with hm | hm
    · exact h1 th kd hm
    · simp at hm; exact hop th kd hm.symm
  · rw [Sig.one_snoc, h2]

theorem act_ready {t : Int} {s : State σ ρ δ β} (hs : Single t s) (hal : s.sg.alive = true) (c : Conn σ ρ) (r : ρ) :
    Act t s (s.ready c r) ∧ emissions (s.ready c r).sg.log = emissions s.sg.log ++ [r] ∧ (s.ready c r).hq = s.hq := by
  have h := Sig.step_emit s.sg hs.ub r hal
  refine ⟨⟨?_, rfl, rfl, h.2.1, ?_, h.2.2.1, ?_, ⟨[r], h.1⟩⟩, h.1, rfl⟩
  · intro hs; exact Single.step hs (.emit 0 r) (by simp)
  · exact h.2.2.2.trans hal.symm
  · intro _ he
    rw [show (s.ready c r).sg = Sig.step s.sg (.emit 0 r) from rfl, h.1] at he
    simp at he

/-- Activation of one connection. -/
theorem act_activate (h : Helper σ ρ) (x : σ) (cross : Bool) {t : Int} {s : State σ ρ δ β} (hs : Single t s) (hal : s.sg.alive = true) (ci : Conn σ ρ × Nat) :
    Act t s (s.activate h x cross ci) ∧
    (∀ r ∈ emissions (s.activate h x cross ci).sg.log, r ∈ emissions s.sg.log ∨ ci.1.react x = some r) ∧
    (∀ p ∈ (s.activate h x cross ci).hq, p ∈ s.hq ∨ (p.1 = ci.2 ∧ ci.1.react x = some p.2)) ∧
    (∀ p ∈ s.hq, p ∈ (s.activate h x cross ci).hq) ∧
    ((emissions s.sg.log = [] → ∀ j, s.live j = true) → ci.1.react x ≠ none →
      emissions (s.activate h x cross ci).sg.log ≠ [] ∨ (s.activate h x cross ci).hq ≠ []) ∧
    ((h.own = true ∨ (ci.1.queued = false ∧ cross = false)) → (s.activate h x cross ci).hq = s.hq ∧
      ((emissions s.sg.log = [] → ∀ j, s.live j = true) →
        (emissions (s.activate h x cross ci).sg.log).head? = (emissions s.sg.log).head?.or (ci.1.react x))) := by
  unfold State.activate
  cases hr : ci.1.react x with
  | none =>
    refine ⟨Act.refl t s, fun r h => .inl h, fun p h => .inl h, fun p h => h, fun _ h => absurd rfl h, fun _ => ⟨rfl, fun _ => by simp⟩⟩
  | some r =>
    dsimp only
    by_cases hl : s.live ci.2 = true
    · rw [if_pos hl]
      by_cases hq : ((ci.1.queued || cross) && !h.own) = true
      · rw [if_pos hq]
        refine ⟨⟨id, rfl, rfl, rfl, rfl, rfl, id, [], by simp⟩, fun r h => .inl h, ?_, fun p hp => by simp [hp], fun _ _ => .inr (by simp), ?_⟩
        · intro p hp
          rcases List.mem_append.mp hp with hp | hp
          · exact .inl hp
          · simp at hp; subst hp; exact .inr ⟨rfl, rfl⟩
        · intro hd; exfalso
          rcases hd with hd | ⟨hd, hc⟩
          · simp [hd] at hq
          · simp [hd, hc] at hq
      · rw [if_neg hq]
        obtain ⟨ha, he, hhq⟩ := act_ready hs hal ci.1 r
        refine ⟨ha, ?_, ?_, ?_, fun _ _ => .inl (by rw [he]; simp), fun _ => ⟨hhq, fun _ => ?_⟩⟩
        · intro r' hr'; rw [he] at hr'
          rcases List.mem_append.mp hr' with h | h
          · exact .inl h
          · simp at h; subst h; exact .inr rfl
        · intro p hp; rw [hhq] at hp; exact .inl hp
        · intro p hp; rw [hhq]; exact hp
        · rw [he]; cases emissions s.sg.log <;> simp
    · rw [if_neg hl]
      have hne : (emissions s.sg.log = [] → ∀ j, s.live j = true) → emissions s.sg.log ≠ [] := fun hh he => hl (hh he ci.2)
      refine ⟨Act.refl t s, fun r h => .inl h, fun p h => .inl h, fun p h => h, fun hh _ => .inl (hne hh), fun _ => ⟨rfl, fun hh => ?_⟩⟩
      have := hne hh
      cases hem : emissions s.sg.log with
      | nil => exact absurd hem this
      | cons a l => simp

/-- Activation of all connections. -/
theorem act_fold (h : Helper σ ρ) (x : σ) (cross : Bool) {t : Int} (l : List (Conn σ ρ × Nat)) : ∀ {s : State σ ρ δ β} (_ : Single t s) (_ : s.sg.alive = true)
    (_ : emissions s.sg.log = [] → ∀ j, s.live j = true),
    Act t s (l.foldl (State.activate h x cross) s) ∧
    (∀ r ∈ emissions (l.foldl (State.activate h x cross) s).sg.log, r ∈ emissions s.sg.log ∨ ∃ ci ∈ l, ci.1.react x = some r) ∧
    (∀ p ∈ (l.foldl (State.activate h x cross) s).hq, p ∈ s.hq ∨ ∃ ci ∈ l, p.1 = ci.2 ∧ ci.1.react x = some p.2) ∧
    (∀ p ∈ s.hq, p ∈ (l.foldl (State.activate h x cross) s).hq) ∧
    ((l.findSome? (fun ci => ci.1.react x)) ≠ none →
      emissions (l.foldl (State.activate h x cross) s).sg.log ≠ [] ∨ (l.foldl (State.activate h x cross) s).hq ≠ []) ∧
    ((∀ ci ∈ l, h.own = true ∨ (ci.1.queued = false ∧ cross = false)) → (l.foldl (State.activate h x cross) s).hq = s.hq ∧
      (emissions (l.foldl (State.activate h x cross) s).sg.log).head? = (emissions s.sg.log).head?.or (l.findSome? (fun ci => ci.1.react x))) := by
  induction l with
  | nil => intro s hs hal hl; exact ⟨Act.refl t s, fun r h => .inl h, fun p h => .inl h, fun p h => h, fun h => absurd rfl h, fun _ => ⟨rfl, by simp⟩⟩
  | cons ci l ih =>
    intro s hs hal hl
    obtain ⟨a1, a2, a3, a4, a5, a6⟩ := act_activate h x cross hs hal ci
    obtain ⟨b1, b2, b3, b4, b5, b6⟩ := ih (s := s.activate h x cross ci) (a1.sg hs) (a1.alive.trans hal) (a1.livee hl)
    simp only [List.foldl_cons]
    refine ⟨a1.trans b1, ?_, ?_, fun p hp => b4 p (a4 p hp), ?_, ?_⟩
    · intro r hr
      rcases b2 r hr with hr | ⟨cj, hcj, e⟩
      · rcases a2 r hr with hr | e
        · exact .inl hr
        · exact .inr ⟨ci, by simp, e⟩
      · exact .inr ⟨cj, by simp [hcj], e⟩
    · intro p hp
      rcases b3 p hp with hp | ⟨cj, hcj, e⟩
      · rcases a3 p hp with hp | e
        · exact .inl hp
        · exact .inr ⟨ci, by simp, e⟩
      · exact .inr ⟨cj, by simp [hcj], e⟩
    · intro hne
      by_cases hci : ci.1.react x = none
      · apply b5; rw [List.findSome?_cons, hci] at hne; exact hne
      · rcases a5 hl hci with e | e
        · left; obtain ⟨m, hm⟩ := b1.em; rw [hm]; intro h0; exact e (List.append_eq_nil_iff.mp h0).1
        · right
          cases hq : (s.activate h x cross ci).hq with
          | nil => exact absurd hq e
          | cons p q => intro h0; have := b4 p (by rw [hq]; simp); rw [h0] at this; cases this
    · intro hd
      obtain ⟨c1, c2⟩ := a6 (hd ci (by simp))
      obtain ⟨d1, d2⟩ := b6 (fun cj hcj => hd cj (by simp [hcj]))
      refine ⟨d1.trans c1, ?_⟩
      rw [d2, c2 hl, List.findSome?_cons]
      cases (emissions s.sg.log).head? with
      | some v => rfl
      | none => cases ci.1.react x <;> rfl

theorem zipIdx_findSome (l : List (Conn σ ρ)) (x : σ) : l.zipIdx.findSome? (fun ci => ci.1.react x) = l.findSome? (fun c => c.react x) := by
  have : l.findSome? (fun c => c.react x) = (l.zipIdx.map Prod.fst).findSome? (fun c => c.react x) := by rw [List.zipIdx_map_fst]
  rw [this, List.findSome?_map]; rfl

theorem inv_start (h : Helper σ ρ) (k : Cont ρ δ β) (t : Int) (d : δ) : Inv h k t d [] (start t d : State σ ρ δ β) := by
  have he : emissions (start t d : State σ ρ δ β).sg.log = [] := by simp [start, Sig.one, Sig.exec, Sig.step, Sig.State.emit]
  refine ⟨⟨[], by simp, rfl⟩, ?_, ?_, ?_, ?_, fun _ => rfl, fun _ _ => rfl, ?_, ?_⟩
  · simp [start, Sig.one, Sig.exec, Sig.step, Sig.State.emit, answer, Sig.answerOf]
  · simp [start, Sig.one, Sig.exec, Sig.step, Sig.State.emit, device, exists?, elapsed]
  · rw [he]; simp
  · simp [start]
  · simp [heard]
  · intro _ _; rw [he]; simp [start, heard]

theorem settle_facts (k : Cont ρ δ β) (s : State σ ρ δ β) (hs : s.out = none) :
    (s.settle k).sg = s.sg ∧ (s.settle k).hq = s.hq ∧ (s.settle k).live = s.live ∧ ((s.settle k).out = none ↔ answer s.sg.log = none) ∧
    ((s.settle k).out = none → (s.settle k).dev = s.dev) ∧
    (∀ x, (s.settle k).out = some x → ∃ r n, answer s.sg.log = some (r, n) ∧ x = (k r s.dev).1 ∧ (s.settle k).dev = (k r s.dev).2) := by
  unfold State.settle
  cases ha : answer s.sg.log with
  | none => simp [hs]
  | some y => obtain ⟨r, n⟩ := y; refine ⟨rfl, rfl, rfl, by simp, by simp, ?_⟩; intro x hx; simp at hx; exact ⟨r, n, rfl, hx.symm, rfl⟩

theorem findSome_snoc (l : List σ) (x : σ) (f : σ → Option ρ) : (l ++ [x]).findSome? f = (l.findSome? f).or (f x) := by
  rw [List.findSome?_append]; cases l.findSome? f <;> simp [List.findSome?] <;> cases f x <;> rfl

theorem inv_step {h : Helper σ ρ} {k : Cont ρ δ β} {t : Int} {d : δ} {ops : List (Op σ δ)} {s : State σ ρ δ β} (hi : Inv h k t d ops s) (op : Op σ δ) :
    Inv h k t d (ops ++ [op]) (step h k s op) := by
  have hsg : Single t s := hi.sg
  unfold step
  by_cases ho : s.out.isSome = true
  · rw [if_pos ho]
    have hon : ¬ s.out = none := by intro e; simp [e] at ho
    have hmem : ∀ x ∈ heard ops, x ∈ heard (ops ++ [op]) := by intro x hx; rw [heard_append]; simp [hx]
    refine ⟨hi.sg, hi.out, fun e => absurd e hon, ?_, ?_, hi.ownq, hi.livee, fun e => absurd e hon, ?_⟩
    · intro r hr; obtain ⟨x, hx, c⟩ := hi.sound r hr; exact ⟨x, hmem x hx, c⟩
    · intro r hr; obtain ⟨x, hx, c⟩ := hi.soundq r hr; exact ⟨x, hmem x hx, c⟩
    · intro hd hc
      rw [noCross_append] at hc
      simp only [Bool.and_eq_true] at hc
      obtain ⟨f1, f2, f3⟩ := hi.first hd hc.1
      refine ⟨f1, fun e => absurd e hon, fun v hv => ?_⟩
      rw [heard_append, List.findSome?_append, f3 v hv]; rfl
  · rw [if_neg ho]
    have hon : s.out = none := by simpa using ho
    obtain ⟨hp1, hp2, hp3⟩ := hi.pend hon
    have hdevs : s.dev.isSome = exists? ops := by rw [hp1, device_isSome]
    have hans : answer s.sg.log = none := hi.out.mp hon
    -- steps of the waiting coroutine that leave the helper alone
    have quiet : ∀ (s1 : State σ ρ δ β) (op : Op σ δ), Single t s1 → s1.hq = s.hq → s1.live = s.live → emissions s1.sg.log = emissions s.sg.log →
        (s1.out = none ↔ answer s1.sg.log = none) → heard (ops ++ [op]) = heard ops →
        (s1.out = none → s1.dev = device (some d) (ops ++ [op]) ∧ s1.sg.alive = (!h.own || exists? (ops ++ [op])) ∧ s1.sg.now = elapsed (ops ++ [op])) →
        (noCross (ops ++ [op]) = noCross ops) → Inv h k t d (ops ++ [op]) s1 := by
      intro s1 op e1 e2 e3 e4 e5 e6 e7 e8
      refine ⟨e1, e5, e7, ?_, ?_, by rw [e2]; exact hi.ownq, ?_, ?_, ?_⟩
      · rw [e4, e6]; exact hi.sound
      · rw [e2, e6]; exact hi.soundq
      · rw [e4, e3]; exact hi.livee
      · intro _; rw [e4, e2, e6]; exact hi.compl hon
      · rw [e8, e2, e4, e6]
        intro hd hc
        obtain ⟨f1, f2, f3⟩ := hi.first hd hc
        exact ⟨f1, fun _ => f2 hon, f3⟩
    cases op with
    | sig x cross =>
      dsimp only
      by_cases hdev : s.dev.isSome = true
      · rw [if_pos hdev]
        have hex : exists? ops = true := hdevs ▸ hdev
        have hal : s.sg.alive = true := by rw [hp2, hex]; simp
        obtain ⟨b1, b2, b3, b4, b5, b6⟩ := act_fold h x cross h.conns.zipIdx hsg hal hi.livee
        have hh : heard (ops ++ [.sig x cross]) = heard ops ++ [x] := by rw [heard_append, hex]; simp [heard]
        generalize List.foldl (State.activate h x cross) s h.conns.zipIdx = s1 at *
        refine ⟨b1.sg hi.sg, by rw [b1.out, b1.ans]; exact hi.out, ?_, ?_, ?_, fun ho => (b6 (fun _ _ => .inl ho)).1.trans (hi.ownq ho), b1.livee hi.livee, ?_, ?_⟩
        · intro _
          refine ⟨?_, ?_, ?_⟩
          · rw [b1.dev, hp1, device_append, hex]; rfl
          · rw [b1.alive, hp2, exists_append]; simp [exists?]
          · rw [b1.now, hp3, elapsed_append]; simp [elapsed]
        · intro r hr
          rw [hh]
          rcases b2 r hr with hr | ⟨ci, hci, e⟩
          · obtain ⟨y, hy, c⟩ := hi.sound r hr; exact ⟨y, by simp [hy], c⟩
          · refine ⟨x, by simp, ci.1, ?_, e⟩
            have := List.mk_mem_zipIdx_iff_getElem?.mp (show (ci.1, ci.2) ∈ h.conns.zipIdx from hci)
            exact List.mem_of_getElem? this
        · intro p hp
          rw [hh]
          rcases b3 p hp with hp | ⟨ci, hci, e1, e2⟩
          · obtain ⟨y, hy, c⟩ := hi.soundq p hp; exact ⟨y, by simp [hy], c⟩
          · refine ⟨x, by simp, ci.1, ?_, e2⟩
            have := List.mk_mem_zipIdx_iff_getElem?.mp (show (ci.1, ci.2) ∈ h.conns.zipIdx from hci)
            rw [e1]; exact this
        · intro _ y hy hhit
          rw [hh] at hy
          rcases List.mem_append.mp hy with hy | hy
          · rcases hi.compl hon y hy hhit with e | e
            · left; obtain ⟨m, hm⟩ := b1.em; rw [hm]; intro h0; exact e (List.append_eq_nil_iff.mp h0).1
            · right
              cases hq : s.hq with
              | nil => exact absurd hq e
              | cons p q => intro h0; have := b4 p (by rw [hq]; simp); rw [h0] at this; cases this
          · simp at hy; subst hy
            apply b5
            rw [zipIdx_findSome]; exact hhit
        · intro hd hc
          rw [noCross_append] at hc
          simp only [Bool.and_eq_true] at hc
          obtain ⟨hc1, hc2⟩ := hc
          have hcr : cross = false := by cases cross with | false => rfl | true => simp [noCross] at hc2
          obtain ⟨f1, f2, f3⟩ := hi.first hd hc1
          have hall : ∀ ci ∈ h.conns.zipIdx, h.own = true ∨ ci.1.queued = false ∧ cross = false := by
            intro ci hci
            have hm := List.mk_mem_zipIdx_iff_getElem?.mp (show (ci.1, ci.2) ∈ h.conns.zipIdx from hci)
            have hm := List.mem_of_getElem? hm
            unfold Helper.direct at hd
            simp only [Bool.or_eq_true, List.all_eq_true] at hd
            rcases hd with hd | hd
            · exact .inl hd
            · right; exact ⟨by simpa using hd ci.1 hm, hcr⟩
          obtain ⟨g1, g2⟩ := b6 hall
          have key : (emissions s1.sg.log).head? = (heard (ops ++ [.sig x cross])).findSome? h.hit := by
            rw [g2, f2 hon, hh, findSome_snoc, zipIdx_findSome]; rfl
          exact ⟨g1.trans f1, fun _ => key, fun v hv => key ▸ hv⟩
      · rw [if_neg hdev]
        have hex : exists? ops = false := by rw [← hdevs]; simpa using hdev
        refine ⟨hi.sg, hi.out, ?_, ?_, ?_, hi.ownq, hi.livee, ?_, ?_⟩
        · intro _
          refine ⟨?_, ?_, ?_⟩
          · rw [hp1, device_append, hex]; simp; exact device_none _ hex _
          · rw [hp2, exists_append]; simp [exists?]
          · rw [hp3, elapsed_append]; simp [elapsed]
        · rw [heard_append, hex]; simpa using hi.sound
        · rw [heard_append, hex]; simpa using hi.soundq
        · rw [heard_append, hex]; simpa using hi.compl
        · rw [heard_append, hex, noCross_append]
          intro hd hc
          simp only [Bool.and_eq_true] at hc
          simpa using hi.first hd hc.1
    | dev d' =>
      dsimp only
      by_cases hdev : s.dev.isSome = true
      · rw [if_pos hdev]
        have hex : exists? ops = true := hdevs ▸ hdev
        refine quiet _ _ hi.sg rfl rfl rfl hi.out (by rw [heard_append]; simp [heard]) ?_ (by rw [noCross_append]; simp [noCross])
        intro _
        refine ⟨?_, ?_, ?_⟩
        · rw [device_append, hex]; rfl
        · rw [exists_append]; simpa [exists?] using hp2
        · rw [elapsed_append]; simpa [elapsed] using hp3
      · rw [if_neg hdev]
        have hex : exists? ops = false := by rw [← hdevs]; simpa using hdev
        refine quiet _ _ hi.sg rfl rfl rfl hi.out (by rw [heard_append]; simp [heard]) ?_ (by rw [noCross_append]; simp [noCross])
        intro _
        refine ⟨?_, ?_, ?_⟩
        · rw [hp1, device_append, hex]; simp; exact device_none _ hex _
        · rw [exists_append]; simpa [exists?] using hp2
        · rw [elapsed_append]; simpa [elapsed] using hp3
    | gone =>
      dsimp only
      have hexn : exists? (ops ++ [.gone]) = false := by rw [exists_append]; simp [exists?]
      have hdn : device (some d) (ops ++ [.gone]) = none := device_none _ hexn _
      have hel : elapsed (ops ++ [Op.gone (σ := σ) (δ := δ)]) = elapsed ops := by rw [elapsed_append]; simp [elapsed]
      by_cases hown : h.own = true
      · have hst := Sig.step_destroy s.sg hsg.ub
        rw [if_pos hown]
        refine quiet _ _ (Single.step hsg .destroy (by simp)) rfl rfl hst.1 ?_ (by rw [heard_append]; simp [heard]) ?_ (by rw [noCross_append]; simp [noCross])
        · dsimp only; rw [hst.2.1]; exact hi.out
        · intro _
          refine ⟨hdn.symm, ?_, ?_⟩
          · dsimp only; rw [hst.2.2.2, hexn, hown]; rfl
          · dsimp only; rw [hst.2.2.1, hel]; exact hp3
      · rw [if_neg hown]
        refine quiet _ _ hi.sg rfl rfl rfl hi.out (by rw [heard_append]; simp [heard]) ?_ (by rw [noCross_append]; simp [noCross])
        intro _
        refine ⟨hdn.symm, ?_, ?_⟩
        · dsimp only; rw [hp2]; simp [hown]
        · dsimp only; rw [hel]; exact hp3
    | handler =>
      dsimp only
      have hh : heard (ops ++ [Op.handler (σ := σ) (δ := δ)]) = heard ops := by rw [heard_append]; simp [heard]
      have hpend : device (some d) (ops ++ [Op.handler (σ := σ)]) = device (some d) ops ∧ exists? (ops ++ [Op.handler (σ := σ) (δ := δ)]) = exists? ops ∧
          elapsed (ops ++ [Op.handler (σ := σ) (δ := δ)]) = elapsed ops ∧ noCross (ops ++ [Op.handler (σ := σ) (δ := δ)]) = noCross ops := by
        rw [exists_append, elapsed_append, noCross_append, device_append]
        refine ⟨?_, by simp [exists?], by simp [elapsed], by simp [noCross]⟩
        split
        · rfl
        · rename_i hx; rw [device_none _ (by simpa using hx)]
      cases hq : s.hq with
      | nil =>
        exact quiet s _ hi.sg rfl rfl rfl hi.out hh (fun _ => by rw [hpend.1, hpend.2.1, hpend.2.2.1]; exact ⟨hp1, hp2, hp3⟩) hpend.2.2.2
      | cons p q =>
        obtain ⟨i, r⟩ := p
        dsimp only
        obtain ⟨x, hx, c, hc, hcr⟩ := hi.soundq (i, r) (by rw [hq]; simp)
        dsimp only at hc hcr
        rw [hc]
        dsimp only
        have hown : h.own = false := by
          cases hw : h.own with
          | false => rfl
          | true => have := hi.ownq hw; rw [hq] at this; cases this
        have hal : s.sg.alive = true := by rw [hp2, hown]; rfl
        have hsg1 : Single t ({ s with hq := q } : State σ ρ δ β) := hsg
        obtain ⟨a1, a2, a3⟩ := act_ready hsg1 hal c r
        generalize ({ s with hq := q } : State σ ρ δ β).ready c r = s1 at *
        refine ⟨a1.sg hi.sg, by rw [a1.out, a1.ans]; exact hi.out, ?_, ?_, ?_, by simp [hown], a1.livee hi.livee, ?_, ?_⟩
        · intro _
          rw [a1.dev, a1.alive, a1.now, hpend.1, hpend.2.1, hpend.2.2.1]
          exact ⟨hp1, hp2, hp3⟩
        · intro r' hr'
          rw [a2] at hr'
          rw [hh]
          rcases List.mem_append.mp hr' with e | e
          · exact hi.sound r' e
          · simp at e; subst e; exact ⟨x, hx, c, List.mem_of_getElem? hc, hcr⟩
        · intro p hp
          rw [a3] at hp
          rw [hh]
          exact hi.soundq p (by rw [hq]; simp at hp; simp [hp])
        · intro _ _ _ _; left; rw [a2]; simp
        · rw [hpend.2.2.2]
          intro hd hc'
          have := (hi.first hd hc').1
          rw [hq] at this; cases this
    | deliver =>
      dsimp only
      have hst := Sig.step_process s.sg 0
      obtain ⟨f1, f2, f3, f4, f5, _⟩ := settle_facts k ({ s with sg := Sig.step s.sg (.process 0) } : State σ ρ δ β) hon
      have hsg1 := Single.step hsg (.process 0) (by simp)
      generalize ({ s with sg := Sig.step s.sg (.process 0) } : State σ ρ δ β).settle k = s1 at *
      refine quiet s1 _ (by unfold Single; rw [f1]; exact hsg1) f2 f3 (by rw [f1]; exact hst.1) (by rw [f1]; exact f4) (by rw [heard_append]; simp [heard]) ?_ (by rw [noCross_append]; simp [noCross])
      intro ho1
      refine ⟨?_, ?_, ?_⟩
      · rw [f5 ho1]; dsimp only; rw [hp1, device_append]; split
        · rfl
        · rename_i hx; rw [device_none _ (by simpa using hx)]
      · rw [f1]; dsimp only; rw [hst.2.2, hp2, exists_append]; simp [exists?]
      · rw [f1]; dsimp only; rw [hst.2.1, hp3, elapsed_append]; simp [elapsed]
    | time n =>
      dsimp only
      have hst := Sig.step_time s.sg hsg.ub n
      refine quiet _ _ (Single.step hsg (.time n) (by simp)) rfl rfl (by dsimp only; rw [hst.1]) (by dsimp only; rw [hst.1]; exact hi.out) (by rw [heard_append]; simp [heard]) ?_ (by rw [noCross_append]; simp [noCross])
      intro _
      refine ⟨?_, ?_, ?_⟩
      · dsimp only; rw [hp1, device_append]; split
        · rfl
        · rename_i hx; rw [device_none _ (by simpa using hx)]
      · dsimp only; rw [hst.2.2, hp2, exists_append]; simp [exists?]
      · dsimp only; rw [hst.2.1, hp3, elapsed_append]; simp [elapsed]
    | fire =>
      dsimp only
      have hst := Sig.step_fire s.sg 0
      obtain ⟨f1, f2, f3, f4, f5, _⟩ := settle_facts k ({ s with sg := Sig.step s.sg (.fire 0) } : State σ ρ δ β) hon
      have hsg1 := Single.step hsg (.fire 0) (by simp)
      generalize ({ s with sg := Sig.step s.sg (.fire 0) } : State σ ρ δ β).settle k = s1 at *
      refine quiet s1 _ (by unfold Single; rw [f1]; exact hsg1) f2 f3 (by rw [f1]; exact hst.1) (by rw [f1]; exact f4) (by rw [heard_append]; simp [heard]) ?_ (by rw [noCross_append]; simp [noCross])
      intro ho1
      refine ⟨?_, ?_, ?_⟩
      · rw [f5 ho1]; dsimp only; rw [hp1, device_append]; split
        · rfl
        · rename_i hx; rw [device_none _ (by simpa using hx)]
      · rw [f1]; dsimp only; rw [hst.2.2, hp2, exists_append]; simp [exists?]
      · rw [f1]; dsimp only; rw [hst.2.1, hp3, elapsed_append]; simp [elapsed]

theorem inv_run (h : Helper σ ρ) (k : Cont ρ δ β) (t : Int) (d : δ) (ops : List (Op σ δ)) : Inv h k t d ops (run h k t d ops) := by
  induction ops using snocInd with
  | nil => exact inv_start h k t d
  | snoc l op ih => rw [run_snoc]; exact inv_step ih op

/-! ### Consequences -/

/-- Once returned, that is it: a call returns at most once. -/
theorem returned_stays (h : Helper σ ρ) (k : Cont ρ δ β) (t : Int) (d : δ) (ops ops' : List (Op σ δ)) {x : Res β}
    (hx : (run h k t d ops).out = some x) : run h k t d (ops ++ ops') = run h k t d ops := by
  induction ops' using snocInd with
  | nil => simp
  | snoc l op ih =>
    rw [← List.append_assoc, run_snoc, ih]
    unfold step; simp [hx]

/-- What a returning step returned: from a signal the device emitted, or, after the timeout, from nothing. -/
theorem returns (h : Helper σ ρ) (k : Cont ρ δ β) (t : Int) (d : δ) (ops : List (Op σ δ)) (op : Op σ δ) {x : Res β}
    (h0 : (run h k t d ops).out = none) (h1 : (run h k t d (ops ++ [op])).out = some x) :
    ∃ r, x = (k r (device (some d) ops)).1 ∧ (run h k t d (ops ++ [op])).dev = (k r (device (some d) ops)).2 ∧
      (match r with
       | some v => op = .deliver ∧ (∃ y ∈ heard ops, ∃ c ∈ h.conns, c.react y = some v) ∧
                   (h.direct = true → noCross ops = true → (heard ops).findSome? h.hit = some v) ∧
                   (emissions (run h k t d ops).sg.log).head? = some v
       | none => 0 ≤ t ∧ t ≤ elapsed ops ∧ op = .fire ∧ (h.own = true → exists? ops = true)) := by
  have hi := inv_run h k t d ops
  have hi1 := inv_run h k t d (ops ++ [op])
  have hx : ∃ y, answer (run h k t d (ops ++ [op])).sg.log = some y := by
    cases ha : answer (run h k t d (ops ++ [op])).sg.log with
    | none => rw [hi1.out.mpr ha] at h1; cases h1
    | some y => exact ⟨y, rfl⟩
  obtain ⟨⟨r, n⟩, hy⟩ := hx
  obtain ⟨hp1, hp2, hp3⟩ := hi.pend h0
  have hsg : Single t (run h k t d ops) := hi.sg
  -- the returning step
  have hst : (op = .deliver ∨ op = .fire) ∧ x = (k r (run h k t d ops).dev).1 ∧ (run h k t d (ops ++ [op])).dev = (k r (run h k t d ops).dev).2 ∧
      emissions (run h k t d (ops ++ [op])).sg.log = emissions (run h k t d ops).sg.log ∧
      (run h k t d (ops ++ [op])).sg.now = (run h k t d ops).sg.now := by
    rw [run_snoc] at h1 hy ⊢
    have hs : Single t (run h k t d ops) := hi.sg
    have hoh := hi.out
    have howq := hi.ownq
    generalize run h k t d ops = s at *
    have hns : ¬ s.out.isSome = true := by simp [h0]
    unfold step at h1 hy ⊢
    rw [if_neg hns] at h1 hy ⊢
    cases op with
    | sig y cross =>
      exfalso
      dsimp only at h1; split at h1
      · rename_i hdev
        have hex : exists? ops = true := by rw [← device_isSome d ops, ← hp1]; exact hdev
        have hal : s.sg.alive = true := by rw [hp2, hex]; simp
        rw [(act_fold h y cross h.conns.zipIdx hs hal hi.livee).1.out, h0] at h1; cases h1
      · rw [h0] at h1; cases h1
    | dev d' => exfalso; dsimp only at h1; split at h1 <;> rw [h0] at h1 <;> cases h1
    | gone => exfalso; dsimp only at h1; rw [h0] at h1; cases h1
    | handler =>
      exfalso; dsimp only at h1; split at h1
      · rw [h0] at h1; cases h1
      · split at h1
        · rw [h0] at h1; cases h1
        · rw [show (({ s with hq := _ } : State σ ρ δ β).ready _ _).out = s.out from rfl, h0] at h1; cases h1
    | time n => exfalso; dsimp only at h1; rw [h0] at h1; cases h1
    | deliver =>
      dsimp only at h1 hy ⊢
      have hst := Sig.step_process s.sg 0
      obtain ⟨f1, f2, f3, f4, f5, f6⟩ := settle_facts k ({ s with sg := Sig.step s.sg (.process 0) } : State σ ρ δ β) h0
      obtain ⟨r', n', g1, g2, g3⟩ := f6 x h1
      rw [f1] at hy ⊢
      rw [show answer ({ s with sg := Sig.step s.sg (.process 0) } : State σ ρ δ β).sg.log = some (r, n) from hy] at g1
      cases g1
      exact ⟨.inl rfl, g2, g3, hst.1, hst.2.1⟩
    | fire =>
      dsimp only at h1 hy ⊢
      have hst := Sig.step_fire s.sg 0
      obtain ⟨f1, f2, f3, f4, f5, f6⟩ := settle_facts k ({ s with sg := Sig.step s.sg (.fire 0) } : State σ ρ δ β) h0
      obtain ⟨r', n', g1, g2, g3⟩ := f6 x h1
      rw [f1] at hy ⊢
      rw [show answer ({ s with sg := Sig.step s.sg (.fire 0) } : State σ ρ δ β).sg.log = some (r, n) from hy] at g1
      cases g1
      exact ⟨.inr rfl, g2, g3, hst.1, hst.2.1⟩
  obtain ⟨hop, e1, e2, e3, e4⟩ := hst
  refine ⟨r, by rw [← hp1]; exact e1, by rw [← hp1]; exact e2, ?_⟩
  obtain ⟨so, hso, hone⟩ := hi1.sg
  cases r with
  | some v =>
    rw [hone] at hy
    have hv := Sig.one_value hy
    rw [← hone, e3] at hv
    refine ⟨?_, hi.sound v (List.mem_of_mem_head? (by rw [hv]; rfl)), fun hd hc => (hi.first hd hc).2.2 v hv, hv⟩
    rcases hop with rfl | rfl
    · rfl
    · exfalso
      rw [← hone] at hy
      rw [run_snoc] at hy
      unfold step at hy
      rw [if_neg (by simp [h0])] at hy
      dsimp only at hy
      rw [(settle_facts k ({ run h k t d ops with sg := Sig.step (run h k t d ops).sg (.fire 0) } : State σ ρ δ β) h0).1] at hy
      have hinv : Sig.Inv (run h k t d ops).sg := by
        obtain ⟨so', _, hone'⟩ := hi.sg; rw [hone']; exact Sig.inv_exec _
      cases Sig.fire_none _ hinv (hi.out.mp h0) hy
  | none =>
    have hn := Sig.one_nothing (hone ▸ hy)
    have hnow := Sig.answer_now t so hso none n (hone ▸ hy)
    rw [← hone, e4, hp3] at hnow
    refine ⟨hn.1, by omega, ?_⟩
    rcases hop with rfl | rfl
    · exfalso
      rw [run_snoc] at hy
      unfold step at hy
      rw [if_neg (by simp [h0])] at hy
      dsimp only at hy
      rw [(settle_facts k ({ run h k t d ops with sg := Sig.step (run h k t d ops).sg (.process 0) } : State σ ρ δ β) h0).1] at hy
      exact Sig.process_some _ (hi.out.mp h0) hy
    · refine ⟨rfl, fun hown => ?_⟩
      rw [run_snoc] at hy
      unfold step at hy
      rw [if_neg (by simp [h0])] at hy
      dsimp only at hy
      rw [(settle_facts k ({ run h k t d ops with sg := Sig.step (run h k t d ops).sg (.fire 0) } : State σ ρ δ β) h0).1] at hy
      have hinv : Sig.Inv (run h k t d ops).sg := by
        obtain ⟨so', _, hone'⟩ := hi.sg; rw [hone']; exact Sig.inv_exec _
      have := Sig.fire_alive _ hinv (hi.out.mp h0) hy
      rw [hp2, hown] at this
      simpa using this

/-- Every returned call returned at some step. -/
theorem out_split (h : Helper σ ρ) (k : Cont ρ δ β) (t : Int) (d : δ) (ops : List (Op σ δ)) {x : Res β} (hx : (run h k t d ops).out = some x) :
    ∃ pre op post, ops = pre ++ op :: post ∧ (run h k t d pre).out = none ∧ (run h k t d (pre ++ [op])).out = some x := by
  induction ops using snocInd with
  | nil => simp [run, start] at hx
  | snoc l op ih =>
    cases ho : (run h k t d l).out with
    | some y =>
      rw [returned_stays h k t d l [op] ho] at hx
      obtain ⟨pre, o, post, e1, e2, e3⟩ := ih hx
      exact ⟨pre, o, post ++ [op], by rw [e1]; simp, e2, e3⟩
    | none => exact ⟨l, op, [], rfl, ho, hx⟩

theorem heard_prefix (pre post : List (Op σ δ)) {x : σ} (hx : x ∈ heard pre) : x ∈ heard (pre ++ post) := by
  rw [heard_append]; simp [hx]

/-- A returned value comes from a signal, or the timeout elapsed. -/
theorem returned (h : Helper σ ρ) (k : Cont ρ δ β) (t : Int) (d : δ) (ops : List (Op σ δ)) {x : Res β} (hx : (run h k t d ops).out = some x) :
    (∃ pre post, ops = pre ++ .deliver :: post ∧ ∃ v, x = (k (some v) (device (some d) pre)).1 ∧ (∃ y ∈ heard pre, ∃ c ∈ h.conns, c.react y = some v) ∧
        (h.direct = true → noCross pre = true → (heard pre).findSome? h.hit = some v)) ∨
    (∃ pre post, ops = pre ++ .fire :: post ∧ x = (k none (device (some d) pre)).1 ∧ 0 ≤ t ∧ t ≤ elapsed pre ∧ (h.own = true → exists? pre = true)) := by
  obtain ⟨pre, op, post, rfl, e2, e3⟩ := out_split h k t d ops hx
  obtain ⟨r, g1, _, g3⟩ := returns h k t d pre op e2 e3
  cases r with
  | none => right; obtain ⟨a, b, rfl, c⟩ := g3; exact ⟨pre, post, rfl, g1, a, b, c⟩
  | some v =>
    left; obtain ⟨rfl, a, b, _⟩ := g3; exact ⟨pre, post, rfl, v, g1, a, b⟩

/-- No signal that matters and no timeout: the call has not returned. -/
theorem pending (h : Helper σ ρ) (k : Cont ρ δ β) (t : Int) (d : δ) (ops : List (Op σ δ))
    (hh : ∀ y ∈ heard ops, ∀ c ∈ h.conns, c.react y = none) (ht : t < 0 ∨ (elapsed ops : Int) < t) : (run h k t d ops).out = none := by
  cases hx : (run h k t d ops).out with
  | none => rfl
  | some x =>
    exfalso
    rcases returned h k t d ops hx with ⟨pre, post, rfl, v, _, ⟨y, hy, c, hc, e⟩, _⟩ | ⟨pre, post, rfl, _, e1, e2, _⟩
    · rw [hh y (heard_prefix pre _ hy) c hc] at e; cases e
    · rw [elapsed_append] at ht; omega

/-- Without a helper object: destroyed before any signal that matters, the call never returns. -/
theorem own_gone_hangs (h : Helper σ ρ) (k : Cont ρ δ β) (t : Int) (d : δ) (ops : List (Op σ δ)) (hown : h.own = true)
    (h0 : (run h k t d ops).out = none) (hg : exists? ops = false) (hh : ∀ y ∈ heard ops, ∀ c ∈ h.conns, c.react y = none)
    (ops' : List (Op σ δ)) : (run h k t d (ops ++ ops')).out = none := by
  induction ops' using snocInd with
  | nil => simpa using h0
  | snoc l op ih =>
    rw [← List.append_assoc]
    cases hx : (run h k t d ((ops ++ l) ++ [op])).out with
    | none => rfl
    | some x =>
      exfalso
      obtain ⟨r, _, _, g3⟩ := returns h k t d (ops ++ l) op ih hx
      have hh' : heard (ops ++ l) = heard ops := by rw [heard_append, hg]; simp
      cases r with
      | none => have := g3.2.2.2 hown; rw [exists_append, hg] at this; cases this
      | some v => obtain ⟨_, ⟨y, hy, c, hc, e⟩, _⟩ := g3; rw [hh'] at hy; rw [hh y hy c hc] at e; cases e

/-- The timeout elapsed with the call still waiting: it returns. -/
theorem times_out (h : Helper σ ρ) (k : Cont ρ δ β) (t : Int) (d : δ) (ops : List (Op σ δ)) (h0 : (run h k t d ops).out = none)
    (ht : 0 ≤ t) (he : t ≤ elapsed ops) (hex : h.own = true → exists? ops = true) :
    (run h k t d (ops ++ [.fire])).out = some (k none (device (some d) ops)).1 ∧
    (run h k t d (ops ++ [.fire])).dev = (k none (device (some d) ops)).2 := by
  have hi := inv_run h k t d ops
  obtain ⟨hp1, hp2, hp3⟩ := hi.pend h0
  obtain ⟨so, hso, hone⟩ := hi.sg
  have hal : (Sig.one t so).alive = true := by
    rw [← hone, hp2]
    cases hw : h.own with
    | false => rfl
    | true => simp [hex hw]
  have hto := Sig.one_timeout t so hso ht (by rw [← hone, hp3]; exact he) hal (by rw [← hone]; exact hi.out.mp h0)
  rw [Sig.one_snoc, ← hone] at hto
  rw [run_snoc]
  unfold step
  rw [if_neg (by simp [h0])]
  dsimp only
  unfold State.settle
  dsimp only
  rw [hto]
  rw [← hp1]; exact ⟨rfl, rfl⟩

/-- Delivering posted handler calls only. -/
theorem handlers (h : Helper σ ρ) (k : Cont ρ δ β) (t : Int) (d : δ) (ops : List (Op σ δ)) (n : Nat) :
    (run h k t d (ops ++ List.replicate n .handler)).out = (run h k t d ops).out ∧
    ((run h k t d ops).out = none → (run h k t d (ops ++ List.replicate n .handler)).hq.length = (run h k t d ops).hq.length - n) := by
  induction n with
  | zero => simp
  | succ n ih =>
    rw [List.replicate_succ', ← List.append_assoc, run_snoc]
    generalize run h k t d (ops ++ List.replicate n .handler) = s at *
    unfold step
    cases ho : s.out with
    | some y =>
      rw [ho] at ih
      simp only [Option.isSome_some, if_true, ho]
      exact ⟨ih.1, fun h => by rw [h] at ih; simp at ih⟩
    | none =>
      rw [ho] at ih
      rw [if_neg (by simp)]
      dsimp only
      cases hq : s.hq with
      | nil => dsimp only; refine ⟨by rw [ho]; exact ih.1, fun h => ?_⟩; have := ih.2 h; rw [hq] at this ⊢; simp at this ⊢; omega
      | cons p q =>
        obtain ⟨i, r⟩ := p
        dsimp only
        have hlen : (run h k t d ops).out = none → q.length = (run h k t d ops).hq.length - (n + 1) := by
          intro h; have := ih.2 h; rw [hq] at this; simp at this; omega
        cases hc : h.conns[i]? with
        | none => exact ⟨ih.1, hlen⟩
        | some c => exact ⟨ih.1, hlen⟩

theorem delivers (h : Helper σ ρ) (k : Cont ρ δ β) (t : Int) (d : δ) (ops : List (Op σ δ)) (so : List (Sig.Op ρ)) (n : Nat)
    (hs : (run h k t d ops).sg = Sig.one t so) (h0 : (run h k t d (ops ++ List.replicate n .deliver)).out = none) :
    (run h k t d (ops ++ List.replicate n .deliver)).sg = Sig.one t (so ++ List.replicate n (.process 0)) := by
  induction n with
  | zero => simpa using hs
  | succ n ih =>
    rw [List.replicate_succ', ← List.append_assoc] at h0 ⊢
    have hp : (run h k t d (ops ++ List.replicate n .deliver)).out = none := by
      cases ho : (run h k t d (ops ++ List.replicate n .deliver)).out with
      | none => rfl
      | some x => rw [returned_stays h k t d _ _ ho, ho] at h0; cases h0
    rw [List.replicate_succ', ← List.append_assoc, Sig.one_snoc, ← ih hp, run_snoc]
    generalize run h k t d (ops ++ List.replicate n .deliver) = s at *
    unfold step
    rw [if_neg (by simp [hp])]
    exact (settle_facts k ({ s with sg := Sig.step s.sg (.process 0) } : State σ ρ δ β) hp).1

/-- A signal that matters was emitted: once the event loop has delivered what is posted, the call has returned (and stays
so). -/
theorem completes (h : Helper σ ρ) (k : Cont ρ δ β) (t : Int) (d : δ) (ops : List (Op σ δ)) {y : σ} (hy : y ∈ heard ops) (hh : h.hit y ≠ none) :
    ∃ n m, (run h k t d (ops ++ List.replicate n .handler ++ List.replicate m .deliver)).out.isSome = true := by
  cases h0 : (run h k t d ops).out with
  | some x =>
    refine ⟨0, 0, ?_⟩
    rw [List.append_assoc, returned_stays h k t d ops _ h0, h0]; rfl
  | none =>
    obtain ⟨e1, e2⟩ := handlers h k t d ops (run h k t d ops).hq.length
    have hi := inv_run h k t d (ops ++ List.replicate (run h k t d ops).hq.length .handler)
    have hem : emissions (run h k t d (ops ++ List.replicate (run h k t d ops).hq.length .handler)).sg.log ≠ [] := by
      rcases hi.compl (by rw [e1]; exact h0) y (heard_prefix _ _ hy) hh with e | e
      · exact e
      · exfalso; apply e; apply List.eq_nil_of_length_eq_zero; rw [e2 h0]; omega
    refine ⟨(run h k t d ops).hq.length, ?_⟩
    generalize ops ++ List.replicate (run h k t d ops).hq.length .handler = ops1 at *
    obtain ⟨so, hso, hone⟩ := hi.sg
    refine ⟨((Sig.one t so).posted 0).length, ?_⟩
    cases hx : (run h k t d (ops1 ++ List.replicate ((Sig.one t so).posted 0).length .deliver)).out with
    | some x => rfl
    | none =>
      exfalso
      have hd := delivers h k t d ops1 so _ hone hx
      have := Sig.one_delivered t so hso (by rw [← hone]; exact hem) _ (Nat.le_refl _)
      rw [← hd] at this
      have hi2 := inv_run h k t d (ops1 ++ List.replicate ((Sig.one t so).posted 0).length .deliver)
      rw [hi2.out.mp hx] at this
      cases this

/-- For synchronous helpers: no handler calls are ever posted, so delivering results is enough. -/
theorem completes_direct (h : Helper σ ρ) (k : Cont ρ δ β) (t : Int) (d : δ) (ops : List (Op σ δ)) {y : σ} (hy : y ∈ heard ops) (hh : h.hit y ≠ none)
    (hd : h.direct = true) (hc : noCross ops = true) : ∃ m, (run h k t d (ops ++ List.replicate m .deliver)).out.isSome = true := by
  cases h0 : (run h k t d ops).out with
  | some x => exact ⟨0, by simp [h0]⟩
  | none =>
    have hi := inv_run h k t d ops
    have hem : emissions (run h k t d ops).sg.log ≠ [] := by
      rcases hi.compl h0 y hy hh with e | e
      · exact e
      · exact absurd (hi.first hd hc).1 e
    obtain ⟨so, hso, hone⟩ := hi.sg
    refine ⟨((Sig.one t so).posted 0).length, ?_⟩
    cases hx : (run h k t d (ops ++ List.replicate ((Sig.one t so).posted 0).length .deliver)).out with
    | some x => rfl
    | none =>
      exfalso
      have hd := delivers h k t d ops so _ hone hx
      have := Sig.one_delivered t so hso (by rw [← hone]; exact hem) _ (Nat.le_refl _)
      rw [← hd] at this
      have hi2 := inv_run h k t d (ops ++ List.replicate ((Sig.one t so).posted 0).length .deliver)
      rw [hi2.out.mp hx] at this
      cases this

end QCoro.Wait
