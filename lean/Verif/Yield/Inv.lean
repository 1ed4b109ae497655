import Verif.Yield.Spec
/-
Invariants for C82.
-/
set_option linter.unusedSimpArgs false
namespace QCoro.Yield

variable {σ V : Type}

/-! ### Proofs -/

theorem value_snoc (x : Nat) (l : List (Ev V)) (e : Ev V) : value x (l ++ [e]) = (writes x e).or (value x l) := by
  unfold value
  rw [List.filterMap_append]
  cases h : writes x e <;> simp [List.filterMap_cons, h]

theorem pointee_snoc (l : List (Ev V)) (e : Ev V) : pointee (l ++ [e]) = (points e).getD (pointee l) := by
  unfold pointee
  rw [List.filterMap_append]
  cases h : points e <;> simp [List.filterMap_cons, h]

theorem atYield_snoc (l : List (Ev V)) (e : Ev V) : atYield (l ++ [e]) = (turn e).getD (atYield l) := by
  unfold atYield
  rw [List.filterMap_append]
  cases h : turn e <;> simp [List.filterMap_cons, h]

theorem kept_snoc (l : List (Ev V)) (e : Ev V) : keptObjs (l ++ [e]) = keptObjs l ++ (keptObj e).toList := by
  unfold keptObjs
  rw [List.filterMap_append]
  cases h : keptObj e <;> simp [List.filterMap_cons, h]

theorem own_snoc (x : Nat) (l : List (Ev V)) (e : Ev V) : Own x (l ++ [e]) ↔ Own x l ∨ ∃ v, e = .made x v ∨ e = .tmp x v := by
  unfold Own
  simp only [List.mem_append, List.mem_singleton]
  constructor
  · rintro ⟨v, (h | h) | (h | h)⟩
    · exact .inl ⟨v, .inl h⟩
    · exact .inr ⟨v, .inl h.symm⟩
    · exact .inl ⟨v, .inr h⟩
    · exact .inr ⟨v, .inr h.symm⟩
  · rintro (⟨v, h | h⟩ | ⟨v, h | h⟩)
    · exact ⟨v, .inl (.inl h)⟩
    · exact ⟨v, .inr (.inl h)⟩
    · exact ⟨v, .inl (.inr h.symm)⟩
    · exact ⟨v, .inr (.inr h.symm)⟩

theorem over_mono {x : Nat} {l : List (Ev V)} (m : List (Ev V)) (h : Over x l) : Over x (l ++ m) := by
  rcases h with h | ⟨⟨v, h⟩, h2⟩ | ⟨p, v, q, e, h⟩
  · exact .inl (by simp [h])
  · refine .inr (.inl ⟨⟨v, ?_⟩, ?_⟩)
    · rcases h with h | h <;> simp [h]
    · rcases h2 with h | h <;> simp [h]
  · exact .inr (.inr ⟨p, v, q ++ m, by simp [e], by simp [h]⟩)

/-- How one event can end a lifetime. -/
theorem over_snoc (x : Nat) (l : List (Ev V)) (e : Ev V) :
    Over x (l ++ [e]) ↔ Over x l ∨ e = .ended x ∨ (Own x l ∧ (e = .finished ∨ e = .destroyed)) ∨
      ((.finished ∈ l ∨ .destroyed ∈ l) ∧ ∃ v, e = .made x v ∨ e = .tmp x v) ∨ ((∃ v, .tmp x v ∈ l) ∧ e = .resumed) := by
  constructor
  · rintro (h | ⟨h, h2⟩ | ⟨p, v, q, he, h⟩)
    · rcases List.mem_append.1 h with h | h
      · exact .inl (.inl h)
      · simp at h; exact .inr (.inl h.symm)
    · rw [own_snoc] at h
      rcases h with h | h
      · by_cases hf : .finished ∈ l ∨ .destroyed ∈ l
        · exact .inl (.inr (.inl ⟨h, hf⟩))
        · right; right; left
          refine ⟨h, ?_⟩
          simp only [List.mem_append, List.mem_singleton] at h2
          rcases h2 with (h2 | h2) | (h2 | h2)
          · exact absurd (.inl h2) hf
          · exact .inl h2.symm
          · exact absurd (.inr h2) hf
          · exact .inr h2.symm
      · right; right; right; left
        refine ⟨?_, h⟩
        obtain ⟨v, h⟩ := h
        simp only [List.mem_append, List.mem_singleton] at h2
        rcases h2 with (h2 | h2) | (h2 | h2)
        · exact .inl h2
        · rcases h with h | h <;> rw [h] at h2 <;> cases h2
        · exact .inr h2
        · rcases h with h | h <;> rw [h] at h2 <;> cases h2
    · rcases List.eq_nil_or_concat q with rfl | ⟨q', e', rfl⟩
      · cases h
      · rw [show p ++ Ev.tmp x v :: (q'.concat e') = (p ++ .tmp x v :: q') ++ [e'] by simp] at he
        obtain ⟨h1, h2⟩ := List.append_inj' he rfl
        simp at h2
        subst h2
        simp only [List.concat_eq_append, List.mem_append, List.mem_singleton] at h
        rcases h with h | h
        · exact .inl (.inr (.inr ⟨p, v, q', h1, h⟩))
        · right; right; right; right
          exact ⟨⟨v, by rw [h1]; simp⟩, h.symm⟩
  · rintro (h | rfl | ⟨⟨v, h⟩, h2⟩ | ⟨h, v, h2⟩ | ⟨⟨v, h⟩, rfl⟩)
    · exact over_mono _ h
    · exact .inl (by simp)
    · refine .inr (.inl ⟨⟨v, ?_⟩, ?_⟩)
      · rcases h with h | h <;> simp [h]
      · rcases h2 with rfl | rfl <;> simp
    · refine .inr (.inl ⟨⟨v, ?_⟩, ?_⟩)
      · rcases h2 with rfl | rfl <;> simp
      · rcases h with h | h <;> simp [h]
    · obtain ⟨p, q, e⟩ := List.append_of_mem h
      exact .inr (.inr ⟨p, v, q ++ [.resumed], by simp [e], by simp⟩)

/-- The objects an event concerns. -/
def about : Ev V → Option Nat
  | .made x _ | .tmp x _ | .outer x _ | .stored x _ | .loaded x _ | .ended x | .yielded x | .kept x | .got _ x _ | .put _ x _ => some x
  | _ => none

/-- Proof invariant. -/
structure Inv (s : State σ V) : Prop where
  fresh : ∀ e ∈ s.log, ∀ x, about e = some x → x < s.n
  born : ∀ e ∈ s.log, ∀ x, about e = some x → value x s.log ≠ none
  own : ∀ x, s.own x = true ↔ Own x s.log
  over : ∀ x, Over x s.log → s.mem x = none
  live : ∀ x, ¬ Over x s.log → s.mem x = value x s.log
  ext : ∀ x, (∃ v, .outer x v ∈ s.log) → ¬ Own x s.log
  fin : s.ph = .finished → .finished ∈ s.log
  des : s.ph = .destroyed ↔ .destroyed ∈ s.log
  run : s.ph = .fresh ∨ s.ph = .running ∨ s.ph = .awaiting ∨ s.ph = .yielded → .finished ∉ s.log ∧ .destroyed ∉ s.log
  tmp : ∀ x v, .tmp x v ∈ s.log → Over x s.log ∨ s.tmp = some x
  tmpo : ∀ x, s.tmp = some x → s.ph = .yielded ∧ ∃ v, .tmp x v ∈ s.log
  cur : s.cur = pointee s.log
  kept : s.kept = keptObjs s.log
  yld : (s.ph = .yielded) ↔ atYield s.log = true

theorem about_of_writes {x : Nat} {e : Ev V} {v : V} (h : writes x e = some v) : about e = some x := by
  cases e <;> simp_all [writes, about]

theorem about_of_value {x : Nat} {l : List (Ev V)} {v : V} (h : value x l = some v) : ∃ e ∈ l, about e = some x := by
  unfold value at h
  have := List.mem_of_getLast? h
  obtain ⟨e, he, h⟩ := List.mem_filterMap.1 this
  exact ⟨e, he, about_of_writes h⟩

theorem mem_lt {s : State σ V} (hi : Inv s) {x : Nat} {v : V} (h : s.mem x = some v) : x < s.n := by
  by_cases ho : Over x s.log
  · rw [hi.over x ho] at h; cases h
  · rw [hi.live x ho] at h
    obtain ⟨e, he, ha⟩ := about_of_value h
    exact hi.fresh e he x ha

theorem not_over {s : State σ V} (hi : Inv s) {x : Nat} {v : V} (h : s.mem x = some v) : ¬ Over x s.log := by
  intro ho; rw [hi.over x ho] at h; cases h

theorem own_lt {s : State σ V} (hi : Inv s) {x : Nat} (h : Own x s.log) : x < s.n := by
  obtain ⟨v, h | h⟩ := h <;> exact hi.fresh _ h x rfl

theorem over_lt {s : State σ V} (hi : Inv s) {x : Nat} (h : Over x s.log) : x < s.n := by
  rcases h with h | ⟨h, _⟩ | ⟨p, v, q, e, _⟩
  · exact hi.fresh _ h x rfl
  · exact own_lt hi h
  · exact hi.fresh (.tmp x v) (by rw [e]; simp) x rfl

theorem value_lt {s : State σ V} (hi : Inv s) (x : Nat) (h : s.n ≤ x) : value x s.log = none := by
  obtain ⟨w, hw⟩ : ∃ w, value x s.log = w := ⟨_, rfl⟩
  cases w with
  | none => exact hw
  | some v => obtain ⟨e, he, ha⟩ := about_of_value hw; have := hi.fresh e he x ha; omega

theorem value_lt' {s : State σ V} (hi : Inv s) {x : Nat} (h : value x s.log ≠ none) : x < s.n := by
  by_cases hx : x < s.n
  · exact hx
  · exact absurd (value_lt hi x (by omega)) h

theorem value_mono {x : Nat} {l : List (Ev V)} (e : Ev V) (h : value x l ≠ none) : value x (l ++ [e]) ≠ none := by
  rw [value_snoc]; cases writes x e <;> simp [h]

theorem born_snoc {s : State σ V} (hi : Inv s) (e : Ev V) (he : ∀ x, about e = some x → value x s.log ≠ none ∨ writes x e ≠ none) :
    ∀ f ∈ s.log ++ [e], ∀ x, about f = some x → value x (s.log ++ [e]) ≠ none := by
  intro f hf x ha
  rcases List.mem_append.1 hf with hf | hf
  · exact value_mono e (hi.born f hf x ha)
  · simp at hf; subst hf
    rcases he x ha with h | h
    · exact value_mono _ h
    · rw [value_snoc]; revert h; cases writes x f <;> simp

theorem mem_value {s : State σ V} (hi : Inv s) {x : Nat} {v : V} (h : s.mem x = some v) : value x s.log ≠ none := by
  rw [← hi.live x (not_over hi h), h]; simp

theorem pointee_mem {l : List (Ev V)} {x : Nat} (hc : pointee l = some x) : .yielded x ∈ l := by
  unfold pointee at hc
  obtain ⟨o, ho⟩ : ∃ o, (l.filterMap points).getLast? = o := ⟨_, rfl⟩
  rw [ho] at hc
  cases o with
  | none => cases hc
  | some o =>
    simp at hc; subst hc
    obtain ⟨e, he, hpe⟩ := List.mem_filterMap.1 (List.mem_of_getLast? ho)
    cases e <;> simp_all [points]

/-- Events that neither begin nor end a lifetime nor move control. -/
def quiet : Ev V → Bool
  | .stored _ _ | .loaded _ _ | .kept _ | .got _ _ _ | .put _ _ _ => true
  | _ => false

theorem quiet_over {e : Ev V} (h : quiet e = true) (x : Nat) (l : List (Ev V)) : Over x (l ++ [e]) ↔ Over x l := by
  rw [over_snoc]
  constructor
  · rintro (h' | rfl | ⟨_, rfl | rfl⟩ | ⟨_, v, rfl | rfl⟩ | ⟨_, rfl⟩) <;> first | exact h' | cases h
  · exact .inl

theorem quiet_own {e : Ev V} (h : quiet e = true) (x : Nat) (l : List (Ev V)) : Own x (l ++ [e]) ↔ Own x l := by
  rw [own_snoc]
  constructor
  · rintro (h' | ⟨v, rfl | rfl⟩) <;> first | exact h' | cases h
  · exact .inl

theorem mem_quiet {e : Ev V} (h : quiet e = true) (l : List (Ev V)) (f : Ev V) (hf : quiet f = false) : f ∈ l ++ [e] ↔ f ∈ l := by
  simp only [List.mem_append, List.mem_singleton]
  constructor
  · rintro (h' | rfl)
    · exact h'
    · rw [h] at hf; cases hf
  · exact .inl

theorem inv_quiet {s : State σ V} (hi : Inv s) (e : Ev V) (hq : quiet e = true) (hx : ∀ x, about e = some x → value x s.log ≠ none)
    (mem' : Nat → Option V) (st' : σ) (kept' : List Nat) (hm : ∀ x, mem' x = (writes x e).or (s.mem x)) (hw : ∀ x v, writes x e = some v → ¬ Over x s.log)
    (hk : kept' = s.kept ++ (keptObj e).toList) :
    Inv { s with mem := mem', st := st', kept := kept', log := s.log ++ [e] } := by
  refine ⟨?_, ?_, ?_, ?_, ?_, ?_, ?_, ?_, ?_, ?_, ?_, ?_, ?_, ?_⟩ <;> dsimp only
  · intro f hf x ha
    rcases List.mem_append.1 hf with hf | hf
    · exact hi.fresh f hf x ha
    · simp at hf; subst hf; exact value_lt' hi (hx x ha)
  · exact born_snoc hi e (fun x ha => .inl (hx x ha))
  · intro x; rw [quiet_own hq]; exact hi.own x
  · intro x ho
    rw [quiet_over hq] at ho
    rw [hm, hi.over x ho]
    obtain ⟨w, hw'⟩ : ∃ w, writes x e = w := ⟨_, rfl⟩
    cases w with
    | none => rw [hw']; rfl
    | some v => exact absurd ho (hw x v hw')
  · intro x ho
    rw [quiet_over hq] at ho
    rw [hm, value_snoc, hi.live x ho]
  · rintro x ⟨v, h⟩
    rw [mem_quiet hq _ _ rfl] at h
    rw [quiet_own hq]; exact hi.ext x ⟨v, h⟩
  · rw [mem_quiet hq _ _ rfl]; exact hi.fin
  · rw [mem_quiet hq _ _ rfl]; exact hi.des
  · rw [mem_quiet hq _ _ rfl, mem_quiet hq _ _ rfl]; exact hi.run
  · intro x v h
    rw [mem_quiet hq _ _ rfl] at h
    rw [quiet_over hq]; exact hi.tmp x v h
  · intro x h
    obtain ⟨h1, v, h2⟩ := hi.tmpo x h
    exact ⟨h1, v, by simp [h2]⟩
  · rw [pointee_snoc, hi.cur]; cases e <;> first | rfl | cases hq
  · rw [kept_snoc, ← hi.kept, hk]
  · rw [hi.yld, atYield_snoc]; cases e <;> first | rfl | cases hq

theorem mem_snoc_ne {l : List (Ev V)} {e f : Ev V} (h : f ≠ e) : f ∈ l ++ [e] ↔ f ∈ l := by simp [h]

theorem made_inv {s : State σ V} (hi : Inv s) (h : s.ph = .running) (v : V) (st' : σ) :
    Inv { s with mem := upd s.mem s.n (some v), own := upd s.own s.n true, n := s.n + 1, st := st', log := s.log ++ [.made s.n v] } := by
  have hr := hi.run (.inr (.inl h))
  have hov : ∀ x, Over x (s.log ++ [.made s.n v]) ↔ Over x s.log := by
    intro x; rw [over_snoc]; simp [hr.1, hr.2]
  have hn : ¬ Over s.n s.log := fun ho => Nat.lt_irrefl _ (over_lt hi ho)
  refine ⟨?_, ?_, ?_, ?_, ?_, ?_, ?_, ?_, ?_, ?_, ?_, ?_, ?_, ?_⟩ <;> dsimp only
  · intro f hf x ha
    rcases List.mem_append.1 hf with hf | hf
    · have := hi.fresh f hf x ha; omega
    · simp at hf; subst hf; simp [about] at ha; omega
  · exact born_snoc hi _ (fun x ha => .inr (by simp [about] at ha; simp [writes, ha]))
  · intro x; rw [own_snoc, upd_apply]
    by_cases hx : x = s.n
    · subst hx; simp
    · rw [if_neg hx, hi.own]; simp [Ne.symm hx]
  · intro x ho; rw [hov] at ho
    rw [upd_other _ _ (by rintro rfl; exact hn ho)]; exact hi.over x ho
  · intro x ho; rw [hov] at ho
    rw [value_snoc, upd_apply]
    by_cases hx : x = s.n
    · subst hx; simp [writes]
    · rw [if_neg hx, hi.live x ho]; simp [writes, Ne.symm hx]
  · rintro x ⟨w, hx⟩ ho
    simp at hx
    rw [own_snoc] at ho
    rcases ho with ho | ⟨w', ho⟩
    · exact hi.ext x ⟨w, hx⟩ ho
    · simp at ho; have := hi.fresh _ hx x rfl; omega
  · simp [h]
  · rw [hi.des]; simp
  · intro _; simp [hr.1, hr.2]
  · intro x w hx; simp at hx
    rw [hov]; exact hi.tmp x w hx
  · intro x hx; obtain ⟨h1, w, h2⟩ := hi.tmpo x hx; exact ⟨h1, w, by simp [h2]⟩
  · rw [pointee_snoc, hi.cur]; rfl
  · rw [kept_snoc, hi.kept]; simp [keptObj]
  · rw [hi.yld, atYield_snoc]; rfl

theorem outer_inv {s : State σ V} (hi : Inv s) (v : V) :
    Inv { s with mem := upd s.mem s.n (some v), n := s.n + 1, log := s.log ++ [.outer s.n v] } := by
  have hov : ∀ x, Over x (s.log ++ [.outer s.n v]) ↔ Over x s.log := by intro x; rw [over_snoc]; simp
  have hn : ¬ Over s.n s.log := fun ho => Nat.lt_irrefl _ (over_lt hi ho)
  refine ⟨?_, ?_, ?_, ?_, ?_, ?_, ?_, ?_, ?_, ?_, ?_, ?_, ?_, ?_⟩ <;> dsimp only
  · intro f hf x ha
    rcases List.mem_append.1 hf with hf | hf
    · have := hi.fresh f hf x ha; omega
    · simp at hf; subst hf; simp [about] at ha; omega
  · exact born_snoc hi _ (fun x ha => .inr (by simp [about] at ha; simp [writes, ha]))
  · intro x; rw [own_snoc, hi.own]; simp
  · intro x ho; rw [hov] at ho
    rw [upd_other _ _ (by rintro rfl; exact hn ho)]; exact hi.over x ho
  · intro x ho; rw [hov] at ho
    rw [value_snoc, upd_apply]
    by_cases hx : x = s.n
    · subst hx; simp [writes]
    · rw [if_neg hx, hi.live x ho]; simp [writes, Ne.symm hx]
  · rintro x ⟨w, hx⟩ ho
    rw [own_snoc] at ho
    simp at ho
    rcases List.mem_append.1 hx with hx | hx
    · exact hi.ext x ⟨w, hx⟩ ho
    · simp at hx; have := own_lt hi ho; omega
  · intro h; simp [hi.fin h]
  · rw [hi.des]; simp
  · intro h; simp [hi.run h]
  · intro x w hx; simp at hx
    rw [hov]; exact hi.tmp x w hx
  · intro x hx; obtain ⟨h1, w, h2⟩ := hi.tmpo x hx; exact ⟨h1, w, by simp [h2]⟩
  · rw [pointee_snoc, hi.cur]; rfl
  · rw [kept_snoc, hi.kept]; simp [keptObj]
  · rw [hi.yld, atYield_snoc]; rfl

theorem ended_inv {s : State σ V} (hi : Inv s) (x : Nat) (w : V) (hx : s.mem x = some w) (st' : σ) :
    Inv { s with mem := upd s.mem x none, st := st', log := s.log ++ [.ended x] } := by
  have hov : ∀ y, Over y (s.log ++ [.ended x]) ↔ Over y s.log ∨ y = x := by
    intro y; rw [over_snoc]; simp [eq_comm]
  refine ⟨?_, ?_, ?_, ?_, ?_, ?_, ?_, ?_, ?_, ?_, ?_, ?_, ?_, ?_⟩ <;> dsimp only
  · intro f hf y ha
    rcases List.mem_append.1 hf with hf | hf
    · exact hi.fresh f hf y ha
    · simp at hf; subst hf; simp [about] at ha; subst ha; exact mem_lt hi hx
  · exact born_snoc hi _ (fun y ha => .inl (by simp [about] at ha; rw [← ha]; exact mem_value hi hx))
  · intro y; rw [own_snoc, hi.own]; simp
  · intro y ho; rw [hov] at ho
    rw [upd_apply]
    split
    · rfl
    · rename_i hne; exact hi.over y (ho.resolve_right hne)
  · intro y ho; rw [hov] at ho
    rw [value_snoc, upd_other _ _ (fun e => ho (.inr e)), hi.live y (fun e => ho (.inl e))]; rfl
  · rintro y ⟨v, hy⟩ ho
    rw [own_snoc] at ho
    simp at ho hy
    exact hi.ext y ⟨v, hy⟩ ho
  · intro h; simp [hi.fin h]
  · rw [hi.des]; simp
  · intro h; simp [hi.run h]
  · intro y v hy; simp at hy
    rw [hov]
    rcases hi.tmp y v hy with h | h
    · exact .inl (.inl h)
    · exact .inr h
  · intro y hy; obtain ⟨h1, v, h2⟩ := hi.tmpo y hy; exact ⟨h1, v, by simp [h2]⟩
  · rw [pointee_snoc, hi.cur]; rfl
  · rw [kept_snoc, hi.kept]; simp [keptObj]
  · rw [hi.yld, atYield_snoc]; rfl

theorem yielded_inv {s : State σ V} (hi : Inv s) (h : s.ph = .running) (x : Nat) (w : V) (hx : s.mem x = some w) (st' : σ) :
    Inv { s with cur := some x, ph := .yielded, st := st', log := s.log ++ [.yielded x] } := by
  have hr := hi.run (.inr (.inl h))
  have hov : ∀ y, Over y (s.log ++ [.yielded x]) ↔ Over y s.log := by intro y; rw [over_snoc]; simp
  refine ⟨?_, ?_, ?_, ?_, ?_, ?_, ?_, ?_, ?_, ?_, ?_, ?_, ?_, ?_⟩ <;> dsimp only
  · intro f hf y ha
    rcases List.mem_append.1 hf with hf | hf
    · exact hi.fresh f hf y ha
    · simp at hf; subst hf; simp [about] at ha; subst ha; exact mem_lt hi hx
  · exact born_snoc hi _ (fun y ha => .inl (by simp [about] at ha; rw [← ha]; exact mem_value hi hx))
  · intro y; rw [own_snoc, hi.own]; simp
  · intro y ho; rw [hov] at ho; exact hi.over y ho
  · intro y ho; rw [hov] at ho; rw [value_snoc, hi.live y ho]; rfl
  · rintro y ⟨v, hy⟩ ho
    rw [own_snoc] at ho
    simp at ho hy
    exact hi.ext y ⟨v, hy⟩ ho
  · intro h; cases h
  · simp [hr.2]
  · intro _; simp [hr.1, hr.2]
  · intro y v hy; simp at hy
    rw [hov]; exact hi.tmp y v hy
  · intro y hy; obtain ⟨h1, _⟩ := hi.tmpo y hy; rw [h] at h1; cases h1
  · rw [pointee_snoc]; rfl
  · rw [kept_snoc, hi.kept]; simp [keptObj]
  · rw [atYield_snoc]; simp [turn]

theorem tmp_inv {s : State σ V} (hi : Inv s) (h : s.ph = .running) (v : V) (st' : σ) :
    Inv { s with mem := upd s.mem s.n (some v), own := upd s.own s.n true, n := s.n + 1, cur := some s.n, tmp := some s.n, ph := .yielded, st := st',
                 log := s.log ++ [.tmp s.n v, .yielded s.n] } := by
  have hr := hi.run (.inr (.inl h))
  have hn : ¬ Over s.n s.log := fun ho => Nat.lt_irrefl _ (over_lt hi ho)
  have htm : s.tmp = none := by
    obtain ⟨t, ht⟩ : ∃ t, s.tmp = t := ⟨_, rfl⟩
    cases t with
    | none => exact ht
    | some x => have := (hi.tmpo x ht).1; rw [h] at this; cases this
  have hl : s.log ++ [Ev.tmp s.n v, .yielded s.n] = (s.log ++ [.tmp s.n v]) ++ [.yielded s.n] := by simp
  have hov : ∀ x, Over x (s.log ++ [.tmp s.n v, .yielded s.n]) ↔ Over x s.log := by
    intro x; rw [hl, over_snoc]; simp; rw [over_snoc]; simp [hr.1, hr.2]
  have how : ∀ x, Own x (s.log ++ [.tmp s.n v, .yielded s.n]) ↔ Own x s.log ∨ x = s.n := by
    intro x; rw [hl, own_snoc]; simp; rw [own_snoc]; simp [eq_comm]
  refine ⟨?_, ?_, ?_, ?_, ?_, ?_, ?_, ?_, ?_, ?_, ?_, ?_, ?_, ?_⟩ <;> dsimp only
  · intro f hf x ha
    rcases List.mem_append.1 hf with hf | hf
    · have := hi.fresh f hf x ha; omega
    · simp at hf; rcases hf with rfl | rfl <;> simp [about] at ha <;> omega
  · intro f hf x ha
    rw [hl, value_snoc, value_snoc]
    rcases List.mem_append.1 hf with hf | hf
    · have := hi.born f hf x ha
      by_cases hx : s.n = x <;> simp [writes, hx, this]
    · have hx : s.n = x := by simp at hf; rcases hf with rfl | rfl <;> simpa [about] using ha
      simp [writes, hx]
  · intro x; rw [how, upd_apply]
    by_cases hx : x = s.n
    · simp [hx]
    · rw [if_neg hx, hi.own]; simp [hx]
  · intro x ho; rw [hov] at ho
    rw [upd_other _ _ (by rintro rfl; exact hn ho)]; exact hi.over x ho
  · intro x ho; rw [hov] at ho
    rw [hl, value_snoc, value_snoc, upd_apply]
    by_cases hx : x = s.n
    · subst hx; simp [writes]
    · rw [if_neg hx, hi.live x ho]; simp [writes, Ne.symm hx]
  · rintro x ⟨w, hx⟩ ho
    simp at hx
    rw [how] at ho
    rcases ho with ho | ho
    · exact hi.ext x ⟨w, hx⟩ ho
    · have := hi.fresh _ hx x rfl; omega
  · intro h; cases h
  · simp [hr.2]
  · intro _; simp [hr.1, hr.2]
  · intro x w hx; simp at hx
    rw [hov]
    rcases hx with hx | ⟨rfl, _⟩
    · rcases hi.tmp x w hx with hx | hx
      · exact .inl hx
      · rw [htm] at hx; cases hx
    · exact .inr rfl
  · intro x hx; simp at hx; subst hx; exact ⟨rfl, v, by simp⟩
  · rw [hl, pointee_snoc]; rfl
  · rw [hl, kept_snoc, kept_snoc, hi.kept]; simp [keptObj]
  · rw [hl, atYield_snoc]; simp [turn]

theorem resumed_inv {s : State σ V} (hi : Inv s) (h : s.ph = .fresh ∨ s.ph = .yielded) (mem' : Nat → Option V)
    (hm : ∀ x, mem' x = if s.tmp = some x then none else s.mem x) :
    Inv { s with mem := mem', tmp := none, ph := .running, log := s.log ++ [.resumed] } := by
  have hr := hi.run (by rcases h with h | h <;> simp [h])
  have hov : ∀ x, Over x (s.log ++ [.resumed]) ↔ Over x s.log ∨ s.tmp = some x := by
    intro x; rw [over_snoc]; simp
    constructor
    · rintro (ho | ⟨v, hv⟩)
      · exact .inl ho
      · exact hi.tmp x v hv
    · rintro (ho | ht)
      · exact .inl ho
      · exact .inr (hi.tmpo x ht).2
  refine ⟨?_, ?_, ?_, ?_, ?_, ?_, ?_, ?_, ?_, ?_, ?_, ?_, ?_, ?_⟩ <;> dsimp only
  · intro f hf y ha
    rcases List.mem_append.1 hf with hf | hf
    · exact hi.fresh f hf y ha
    · simp at hf; subst hf; simp [about] at ha
  · exact born_snoc hi _ (fun y ha => by simp [about] at ha)
  · intro y; rw [own_snoc, hi.own]; simp
  · intro y ho; rw [hov] at ho; rw [hm]
    split
    · rfl
    · rename_i hne; exact hi.over y (ho.resolve_right hne)
  · intro y ho; rw [hov] at ho
    rw [hm, if_neg (fun e => ho (.inr e)), value_snoc, hi.live y (fun e => ho (.inl e))]; rfl
  · rintro y ⟨v, hy⟩ ho
    rw [own_snoc] at ho
    simp at ho hy
    exact hi.ext y ⟨v, hy⟩ ho
  · intro h; cases h
  · simp [hr.2]
  · intro _; simp [hr.1, hr.2]
  · intro y v hy; simp at hy
    rw [hov]
    exact .inl (hi.tmp y v hy)
  · intro y hy; cases hy
  · rw [pointee_snoc, hi.cur]; rfl
  · rw [kept_snoc, hi.kept]; simp [keptObj]
  · rw [atYield_snoc]; simp [turn]

theorem drop_inv {s : State σ V} (hi : Inv s) (e : Ev V) (ph' : Phase) (tmp' : Option Nat) (htn : tmp' = none) (h : (e = .finished ∧ ph' = .finished ∧ s.ph = .running) ∨ (e = .destroyed ∧ ph' = .destroyed)) :
    Inv { s with mem := s.dropOwn, cur := none, tmp := tmp', ph := ph', log := s.log ++ [e] } := by
  subst htn
  have hef : e = .finished ∨ e = .destroyed := by rcases h with ⟨h, _⟩ | ⟨h, _⟩ <;> simp [h]
  have hov : ∀ x, Over x (s.log ++ [e]) ↔ Over x s.log ∨ Own x s.log := by
    intro x; rw [over_snoc]; rcases hef with rfl | rfl <;> simp
  have how : ∀ x, Own x (s.log ++ [e]) ↔ Own x s.log := by intro x; rw [own_snoc]; rcases hef with rfl | rfl <;> simp
  have hd : ∀ x, s.dropOwn x = if s.own x then none else s.mem x := fun _ => rfl
  refine ⟨?_, ?_, ?_, ?_, ?_, ?_, ?_, ?_, ?_, ?_, ?_, ?_, ?_, ?_⟩ <;> dsimp only
  · intro f hf y ha
    rcases List.mem_append.1 hf with hf | hf
    · exact hi.fresh f hf y ha
    · simp at hf; subst hf; rcases hef with rfl | rfl <;> simp [about] at ha
  · exact born_snoc hi _ (fun y ha => by rcases hef with rfl | rfl <;> simp [about] at ha)
  · intro y; rw [how]; exact hi.own y
  · intro y ho; rw [hov] at ho; rw [hd]
    split
    · rfl
    · rename_i hne; exact hi.over y (ho.resolve_right (fun hw => hne ((hi.own y).2 hw)))
  · intro y ho; rw [hov] at ho
    rw [hd, if_neg (fun e => ho (.inr ((hi.own y).1 e))), value_snoc, hi.live y (fun e => ho (.inl e))]
    rcases hef with rfl | rfl <;> rfl
  · rintro y ⟨v, hy⟩ ho
    rw [how] at ho
    have hy : .outer y v ∈ s.log := by rcases hef with rfl | rfl <;> simpa using hy
    exact hi.ext y ⟨v, hy⟩ ho
  · intro hp; rcases h with ⟨rfl, _⟩ | ⟨rfl, rfl⟩ <;> simp at hp ⊢
  · rcases h with ⟨rfl, rfl, hrun⟩ | ⟨rfl, rfl⟩
    · have := (hi.run (.inr (.inl hrun))).2; simp [this]
    · simp
  · intro hp; rcases h with ⟨_, rfl, _⟩ | ⟨_, rfl⟩ <;> simp at hp
  · intro y v hy
    have hy : .tmp y v ∈ s.log := by rcases hef with rfl | rfl <;> simpa using hy
    rw [hov]
    exact .inl (.inr ⟨v, .inr hy⟩)
  · intro y hy; cases hy
  · rw [pointee_snoc]; rcases hef with rfl | rfl <;> rfl
  · rw [kept_snoc, hi.kept]; rcases hef with rfl | rfl <;> simp [keptObj]
  · rw [atYield_snoc]; rcases h with ⟨rfl, rfl, _⟩ | ⟨rfl, rfl⟩ <;> simp [turn]

theorem writes_none_or {x : Nat} {e : Ev V} (h : ∀ y, writes y e = none) (m : Nat → Option V) : m x = (writes x e).or (m x) := by rw [h]; rfl

theorem writes_upd {x y : Nat} {e : Ev V} {v : V} (h : ∀ z, writes z e = if x = z then some v else none) (m : Nat → Option V) :
    upd m x (some v) y = (writes y e).or (m y) := by
  rw [h, upd_apply]
  by_cases hxy : x = y
  · subst hxy; simp
  · rw [if_neg hxy, if_neg (Ne.symm hxy)]; rfl

theorem inv_ub {s : State σ V} (hi : Inv s) (u : Option Ub) : Inv { s with ub := u } :=
  ⟨hi.fresh, hi.born, hi.own, hi.over, hi.live, hi.ext, hi.fin, hi.des, hi.run, hi.tmp, hi.tmpo, hi.cur, hi.kept, hi.yld⟩

theorem inv_move {s : State σ V} (hi : Inv s) (ph' : Phase) (st' : σ) (h : s.ph = .running ∧ ph' = .awaiting ∨ s.ph = .awaiting ∧ ph' = .running) :
    Inv { s with ph := ph', st := st' } := by
  have hr := hi.run (by rcases h with h | h <;> simp [h])
  have hy := hi.yld
  refine ⟨hi.fresh, hi.born, hi.own, hi.over, hi.live, hi.ext, ?_, ?_, fun _ => hr, hi.tmp, ?_, hi.cur, hi.kept, ?_⟩ <;> dsimp only
  · rcases h with ⟨_, rfl⟩ | ⟨_, rfl⟩ <;> simp
  · rcases h with ⟨_, rfl⟩ | ⟨_, rfl⟩ <;> simp [hr.2]
  · intro x hx; obtain ⟨h1, _⟩ := hi.tmpo x hx; rcases h with ⟨h, _⟩ | ⟨h, _⟩ <;> rw [h] at h1 <;> cases h1
  · rcases h with ⟨h, rfl⟩ | ⟨h, rfl⟩ <;> rw [h] at hy <;> simp at hy ⊢ <;> exact hy

theorem tmp_none {s : State σ V} (hi : Inv s) (h : s.ph ≠ .yielded) : s.tmp = none := by
  obtain ⟨t, ht⟩ : ∃ t, s.tmp = t := ⟨_, rfl⟩
  cases t with
  | none => exact ht
  | some x => exact absurd (hi.tmpo x ht).1 h

theorem inv_step {s : State σ V} (hi : Inv s) (code : σ → Stmt σ V) (op : Op V) : Inv (step code s op) := by
  unfold step
  split
  · exact hi
  cases op with
  | resume =>
    dsimp only
    split
    · rename_i hp
      have ht := tmp_none hi (by rw [hp]; simp)
      have := resumed_inv hi (.inl hp) s.mem (by intro x; simp [ht])
      rw [← ht] at this; exact this
    · rename_i hp
      split
      · rename_i ht
        have := resumed_inv hi (.inr hp) s.mem (by intro x; simp [ht])
        rw [← ht] at this; exact this
      · rename_i y ht
        exact resumed_inv hi (.inr hp) _ (by intro x; rw [upd_apply, ht]; simp [eq_comm])
    · exact inv_ub hi _
    · exact inv_ub hi _
  | body =>
    dsimp only
    split
    · rename_i hp
      split
      · exact made_inv hi hp _ _
      · split
        · rename_i hm
          refine inv_quiet hi (.stored _ _) rfl ?_ _ _ s.kept (fun x => writes_upd (fun z => rfl) _) ?_ (by simp [keptObj])
          · intro y hy; simp [about] at hy; subst hy; exact mem_value hi hm
          · intro y v hy; simp [writes] at hy; rw [← hy.1]; exact not_over hi hm
        · exact inv_ub hi _
      · split
        · rename_i hm
          refine inv_quiet hi (.loaded _ _) rfl ?_ _ _ s.kept (fun x => rfl) ?_ (by simp [keptObj])
          · intro y hy; simp [about] at hy; subst hy; exact mem_value hi hm
          · intro y v hy; simp [writes] at hy
        · exact inv_ub hi _
      · split
        · rename_i hm ho; exact ended_inv hi _ _ hm _
        · exact inv_ub hi _
      · split
        · rename_i hm; exact yielded_inv hi hp _ _ hm _
        · exact inv_ub hi _
      · exact tmp_inv hi hp _ _
      · exact inv_move hi _ _ (.inl ⟨hp, rfl⟩)
      · have ht := tmp_none hi (by rw [hp]; simp)
        exact drop_inv hi .finished .finished s.tmp ht (.inl ⟨rfl, rfl, hp⟩)
    · exact hi
  | wake =>
    dsimp only
    split
    · rename_i hp; exact inv_move hi _ s.st (.inr ⟨hp, rfl⟩)
    · exact hi
  | keep =>
    dsimp only
    split
    · exact inv_ub hi _
    · split
      · exact inv_ub hi _
      · rename_i x hc
        refine inv_quiet hi (.kept x) rfl ?_ s.mem s.st _ (fun y => rfl) ?_ (by simp [keptObj])
        · intro y hy; simp [about] at hy; subst hy
          rw [hi.cur] at hc
          exact hi.born _ (pointee_mem hc) _ rfl
        · intro y v hy; simp [writes] at hy
  | get r =>
    dsimp only
    split
    · exact inv_ub hi _
    · split
      · split
        · exact inv_ub hi _
        · exact hi
      · split
        · rename_i hm
          refine inv_quiet hi (.got _ _ _) rfl ?_ s.mem s.st s.kept (fun x => rfl) ?_ (by simp [keptObj])
          · intro y hy; simp [about] at hy; subst hy; exact mem_value hi hm
          · intro y v hy; simp [writes] at hy
        · exact inv_ub hi _
  | set r v =>
    dsimp only
    split
    · exact inv_ub hi _
    · split
      · split
        · exact inv_ub hi _
        · exact hi
      · split
        · rename_i hm
          refine inv_quiet hi (.put _ _ _) rfl ?_ _ s.st s.kept (fun x => writes_upd (fun z => rfl) _) ?_ (by simp [keptObj])
          · intro y hy; simp [about] at hy; subst hy; exact mem_value hi hm
          · intro y v hy; simp [writes] at hy; rw [← hy.1]; exact not_over hi hm
        · exact inv_ub hi _
  | outer v => exact outer_inv hi v
  | outerSet x v =>
    dsimp only
    split
    · rename_i hm ho
      refine inv_quiet hi (.stored _ _) rfl ?_ _ s.st s.kept (fun x => writes_upd (fun z => rfl) _) ?_ (by simp [keptObj])
      · intro y hy; simp [about] at hy; subst hy; exact mem_value hi hm
      · intro y v hy; simp [writes] at hy; rw [← hy.1]; exact not_over hi hm
    · exact hi
  | outerEnd x =>
    dsimp only
    split
    · rename_i hm ho; exact ended_inv hi _ _ hm s.st
    · exact hi
  | destroy =>
    dsimp only
    split
    · exact inv_ub hi _
    · exact inv_ub hi _
    · exact drop_inv hi _ _ none rfl (.inr ⟨rfl, rfl⟩)

theorem inv_exec (code : σ → Stmt σ V) (st : σ) (ops : List (Op V)) : Inv (exec code st ops) := by
  induction ops using snocInd with
  | nil =>
    refine ⟨?_, ?_, ?_, ?_, ?_, ?_, ?_, ?_, ?_, ?_, ?_, ?_, ?_, ?_⟩ <;> simp [exec, Own, Over, value, pointee, keptObjs, atYield]
  | snoc ops op ih => rw [exec_snoc]; exact inv_step ih code op

end QCoro.Yield
