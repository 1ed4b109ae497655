import Verif.Generator.Main
import Verif.AsyncGen.Pipeline
/-!
C81: pipelines of synchronous generators.  A generator whose body is a range-for loop over another generator and, for every value, does any work
and co_yields values of its own – beside arbitrary other code – puts out exactly what its loop body makes of what the other generator puts out.
`Out`, `stream`, `Stage`, `Stage.Through` and `Stage.apply` are the specification of streams of `Verif/AsyncGen/Pipe.lean`.
-/
set_option linter.unusedSimpArgs false
namespace QCoro.Gen
open QCoro.AGen (Out Stage stream)
variable {σ V E τ : Type}

/-! ### Specification -/

/-- What an event adds to what generator `x` puts out. Specification, no counterpart in /repo. -/
def out (x : Nat) : Ev V E → Option (Out V E)
  | .yielded g v => if g = x then some (.val v) else none
  | .returned g => if g = x then some (.stop none) else none
  | .raised g e => if g = x then some (.stop (some e)) else none
  | _ => none

/-- Everything generator `x` put out, in order. Specification, no counterpart in /repo. -/
def outs (x : Nat) (log : List (Ev V E)) : List (Out V E) := log.filterMap (out x)

/-- Every begin() and ++ that resumes `g` in `log` is a call by the body of `c`. Specification, no counterpart in /repo. -/
def OnlyBy (c g : Nat) (log : List (Ev V E)) : Prop := ∀ p call seen q, log = p ++ .adv g call seen :: q → p.getLast? = some (.ran c)

/-- Nobody writes through an iterator of `g` in `log`. Specification, no counterpart in /repo. -/
def Unwritten (g : Nat) (log : List (Ev V E)) : Prop := ∀ v, Ev.poked g v ∉ log

/-- Code inside the loop body: from state `c`, told `r`, it co_yields `ws` with any work in between, then goes to the next round – does ++i and
continues in state `.inl c'` – or leaves the coroutine (`.inr`). Specification of user code, no counterpart in /repo. -/
inductive InBody (P : Prog σ V E) (i : Nat) : σ → Resp V E → List V → σ ⊕ Option E → Prop
  | work {c r c' n ws q} : P.next c r = (c', .api (.work n)) → InBody P i c' .unit ws q → InBody P i c r ws q
  | yield {c r c' w ws q} : P.next c r = (c', .yield w) → InBody P i c' (.resumed w) ws q → InBody P i c r (w :: ws) q
  | next {c r c'} : P.next c r = (c', .api (.inc i)) → InBody P i c r [] (.inl c')
  | ret {c r c'} : P.next c r = (c', .ret) → InBody P i c r [] (.inr none)
  | throw {c r c' e} : P.next c r = (c', .throw e) → InBody P i c r [] (.inr (some e))

/-- `P` contains `for (auto &v : o) { body }`, that is `auto it = o.begin(); auto end = o.end(); for (; it != end; ++it) { auto &v = *it; body }`,
with what follows it, and it computes `K`; `t` are the local variables. Specification of user code. -/
structure IsStage (P : Prog σ V E) (K : Stage τ V E) where
  first : τ → σ
  made : τ → Nat → σ
  loop : τ → Nat → Nat → σ
  test : τ → Nat → Nat → σ
  read : τ → Nat → Nat → σ
  hEnd : ∀ t i, P.next (first t) (.iter i) = (made t i, .api .endIt)
  hCmp0 : ∀ t i j, P.next (made t i) (.iter j) = (test t i j, .api (.cmp i j))
  hCmp : ∀ t i j, P.next (loop t i j) (.iter i) = (test t i j, .api (.cmp i j))
  hRead : ∀ t i j, P.next (test t i j) (.flag false) = (read t i j, .api (.deref i))
  hBody : ∀ t i j v, InBody P i (read t i j) (.val v) (K.body t v).1 (match (K.body t v).2 with | .inl t' => .inl (loop t' i j) | .inr f => .inr f)
  hFin : ∀ t i j, Emits P (test t i j) (.flag true) (K.fin t).1 (K.fin t).2
  hFail0 : ∀ t e, Emits P (first t) (.threw e) (K.fail t e).1 (K.fail t e).2
  hFail : ∀ t i j e, Emits P (loop t i j) (.threw e) (K.fail t e).1 (K.fail t e).2

/-! ### Effects of steps -/

theorem outs_append (x : Nat) (a b : List (Ev V E)) : outs x (a ++ b) = outs x a ++ outs x b := by simp [outs]

theorem outs_one {x : Nat} {e : Ev V E} (h : out x e = none) : outs x [e] = [] := by simp [outs, h]

/-- What an API call of somebody else may do to frame `x`. -/
def Apart (x : Nat) (S S' : List (Nat × Call)) (f f' : Frame σ V E) (e : Ev V E) : Prop :=
  (∃ d, f' = { f with freed := d } ∧ (f.status = .running → d = f.freed)) ∨
  (∃ c r, e = .adv x c f.value ∧ f' = { f with status := .running, inp := r } ∧ S' = (x, c) :: S ∧
    (f.status = .initial ∧ r = .start ∨ f.status = .yielded ∧ ∃ v, f.value = some v ∧ r = .resumed v)) ∨
  ∃ v, e = .poked x v

theorem Apart.same {x : Nat} {S S' : List (Nat × Call)} {f f' : Frame σ V E} {e : Ev V E} (h : f' = f) : Apart x S S' f f' e :=
  .inl ⟨f.freed, h, fun _ => rfl⟩

theorem reply_stack (s : State σ V E) (r : Resp V E) : (s.reply r).stack = s.stack := by unfold State.reply; split <;> simp_all
theorem reply_log (s : State σ V E) (r : Resp V E) : (s.reply r).log = s.log := by unfold State.reply; split <;> rfl
theorem reply_it (s : State σ V E) (r : Resp V E) : (s.reply r).it = s.it := by unfold State.reply; split <;> rfl
theorem reply_nf (s : State σ V E) (r : Resp V E) : (s.reply r).nf = s.nf := by unfold State.reply; split <;> rfl
theorem reply_fr (s : State σ V E) (r : Resp V E) (x : Nat) (h : ∀ k t, s.stack ≠ (x, k) :: t) : (s.reply r).fr x = s.fr x := by
  unfold State.reply
  split
  · rfl
  · rename_i g c rest hs
    have : x ≠ g := by rintro rfl; exact h _ _ hs
    simp [upd_other _ _ this]

/-- Everything an API call does to the rest of the world. -/
structure Effect (s s' : State σ V E) (e : Ev V E) : Prop where
  log : s'.log = s.log ++ [e]
  out : ∀ x, out x e = none
  ran : ∀ k, e ≠ .ran k
  stack : s'.stack = s.stack ∨ ∃ g c v, e = .adv g c v ∧ s'.stack = (g, c) :: s.stack
  it : ∀ i h, s.it i = some h → s'.it i = some h
  nf : s.nf ≤ s'.nf
  fr : ∀ x, x < s.nf → (∀ k t, s.stack ≠ (x, k) :: t) → Apart x s.stack s'.stack (s.fr x) (s'.fr x) e

/-- An API call that is answered at once, touching at most frame `y`. -/
theorem effect_reply {s s1 : State σ V E} {e : Ev V E} {r : Resp V E} (h1 : s1.log = s.log) (h2 : s1.stack = s.stack)
    (h3 : ∀ i h, s.it i = some h → s1.it i = some h) (h4 : s.nf ≤ s1.nf) (ho : ∀ x, out x e = none) (hr : ∀ k, e ≠ .ran k)
    (h5 : ∀ x, x < s.nf → Apart x s.stack s.stack (s.fr x) (s1.fr x) e) : Effect s ((s1.emit e).reply r) e := by
  refine ⟨by rw [reply_log]; simp [State.emit, h1], ho, hr, .inl (by rw [reply_stack]; exact h2), ?_, ?_, ?_⟩
  · intro i h hit; rw [reply_it]; exact h3 i h hit
  · rw [reply_nf]; exact h4
  · intro x hx hs
    rw [reply_fr _ _ _ (by simpa [State.emit, h2] using hs), reply_stack]
    have := h5 x hx
    rw [show (s1.emit e).stack = s.stack from h2]
    exact this

theorem effect_resume {s : State σ V E} {g : Nat} {c : Call} {bad : Ub} (hub : (s.resume g c bad).ub = none) :
    ∃ e, Effect s (s.resume g c bad) e ∧ e = .adv g c (s.fr g).value ∧ (s.resume g c bad).stack = (g, c) :: s.stack ∧ (s.fr g).freed = false ∧
      (∀ x, x ≠ g → (s.resume g c bad).fr x = s.fr x) ∧
      ((s.resume g c bad).it = s.it) := by
  refine ⟨_, ?_, rfl, ?_⟩
  all_goals simp only [State.resume] at hub ⊢
  · split at hub
    · simp [State.fail] at hub
    · rename_i hf
      rw [if_neg hf]
      split at hub
      · rename_i hs
        try simp only [hs]
        refine ⟨rfl, fun x => rfl, by simp, .inr ⟨g, c, _, rfl, rfl⟩, fun i h hit => hit, Nat.le_refl _, fun x hx _ => ?_⟩
        by_cases e : x = g
        · subst e; exact .inr (.inl ⟨c, .start, rfl, by simp [State.emit], rfl, .inl ⟨hs, rfl⟩⟩)
        · exact .same (by simp [State.emit, upd_other _ _ e])
      · rename_i hs
        try simp only [hs]
        split at hub
        · rename_i v hv
          try simp only [hv]
          refine ⟨rfl, fun x => rfl, by simp, .inr ⟨g, c, _, rfl, rfl⟩, fun i h hit => hit, Nat.le_refl _, fun x hx _ => ?_⟩
          by_cases e : x = g
          · subst e; exact .inr (.inl ⟨c, .resumed v, congrArg _ hv.symm, by simp [State.emit, hv], rfl, .inr ⟨hs, v, hv, rfl⟩⟩)
          · exact .same (by simp [State.emit, upd_other _ _ e])
        · simp [State.fail] at hub
      · simp [State.fail] at hub
      · simp [State.fail] at hub
      · simp [State.fail] at hub
  · split at hub
    · simp [State.fail] at hub
    · rename_i hf
      rw [if_neg hf]
      have hf' : (s.fr g).freed = false := by simpa using hf
      split at hub
      · rename_i hs
        try simp only [hs]
        exact ⟨by first | rfl | trivial, hf', fun x hx => by simp [State.emit, upd_other _ _ hx], by first | rfl | trivial⟩
      · rename_i hs
        try simp only [hs]
        split at hub
        · rename_i v hv
          try simp only [hv]
          exact ⟨by first | rfl | trivial, hf', fun x hx => by simp [State.emit, upd_other _ _ hx], by first | rfl | trivial⟩
        · simp [State.fail] at hub
      · simp [State.fail] at hub
      · simp [State.fail] at hub
      · simp [State.fail] at hub

theorem api_effect {s : State σ V E} (hi : Inv s) (a : Api σ V) (hub : (s.api a).ub = none) : ∃ e, Effect s (s.api a) e := by
  have newIt : ∀ (x : Option (Option Nat)) i h, s.it i = some h → upd s.it s.ni x i = some h := by
    intro x i h hit
    have : i ≠ s.ni := by rintro rfl; have := hi.itB s.ni (Nat.le_refl _); simp [hit] at this
    rw [upd_other _ _ this]; exact hit
  have same : ∀ (x : Nat) (e : Ev V E), Apart x s.stack s.stack (s.fr x) (s.fr x) e := fun x e => .same rfl
  cases a with
  | create b =>
    refine ⟨.created s.nf s.no, effect_reply rfl rfl (fun _ _ h => h) (Nat.le_succ _) (fun _ => rfl) (by simp) fun x hx => .same ?_⟩
    exact upd_other _ _ (by omega)
  | mkNull => exact ⟨.mkNull s.no, effect_reply rfl rfl (fun _ _ h => h) (Nat.le_refl _) (fun _ => rfl) (by simp) fun x hx => same _ _⟩
  | begin o =>
    simp only [State.api] at hub ⊢
    split at hub
    · rename_i g hg
      try simp only [hg]
      obtain ⟨e, h, _⟩ := effect_resume hub
      exact ⟨e, h⟩
    · simp [State.fail] at hub
    · simp [State.fail] at hub
  | endIt => exact ⟨.mkEnd s.ni, effect_reply rfl rfl (newIt _) (Nat.le_refl _) (fun _ => rfl) (by simp) fun x hx => same _ _⟩
  | inc i =>
    simp only [State.api] at hub ⊢
    split at hub
    · rename_i h
      try simp only [h]
      exact ⟨.incEnd i, effect_reply rfl rfl (fun _ _ h => h) (Nat.le_refl _) (fun _ => rfl) (by simp) fun x hx => same _ _⟩
    · rename_i g hg
      try simp only [hg]
      obtain ⟨e, h, _⟩ := effect_resume hub
      exact ⟨e, h⟩
    · simp [State.fail] at hub
  | copyIt i =>
    simp only [State.api] at hub ⊢
    split at hub
    · rename_i h hh
      try simp only [hh]
      exact ⟨.copied i s.ni, effect_reply rfl rfl (newIt _) (Nat.le_refl _) (fun _ => rfl) (by simp) fun x hx => same _ _⟩
    · simp [State.fail] at hub
  | cmp i j =>
    simp only [State.api] at hub ⊢
    split at hub
    · rename_i a b ha hb
      try simp only [ha, hb]
      exact ⟨.cmp i j (a == b), effect_reply rfl rfl (fun _ _ h => h) (Nat.le_refl _) (fun _ => rfl) (by simp) fun x hx => same _ _⟩
    · simp [State.fail] at hub
  | deref i =>
    simp only [State.api] at hub ⊢
    repeat' split at hub
    all_goals (try (simp [State.fail] at hub; done))
    rename_i g hg hf _ _ v hs hv
    simp only [hg, hf, hs, hv]
    exact ⟨.read i _, effect_reply rfl rfl (fun _ _ h => h) (Nat.le_refl _) (fun _ => rfl) (by simp) fun x hx => same _ _⟩
  | poke i v =>
    simp only [State.api] at hub ⊢
    repeat' split at hub
    all_goals (try (simp [State.fail] at hub; done))
    rename_i g hg hf _ _ u hs hv
    simp only [hg, hf, hs, hv]
    refine ⟨.poked g v, effect_reply rfl rfl (fun _ _ h => h) (Nat.le_refl _) (fun _ => rfl) (by simp) fun x hx => ?_⟩
    by_cases e : x = g
    · subst e; exact .inr (.inr ⟨v, rfl⟩)
    · exact .same (upd_other _ _ e)
  | moveNew o =>
    simp only [State.api] at hub ⊢
    split at hub
    · rename_i h hh
      try simp only [hh]
      exact ⟨.moved o s.no, effect_reply rfl rfl (fun _ _ h => h) (Nat.le_refl _) (fun _ => rfl) (by simp) fun x hx => same _ _⟩
    · simp [State.fail] at hub
  | moveAssign d c =>
    simp only [State.api] at hub ⊢
    split at hub
    · rename_i h1 h2 hd hc
      try simp only [hd, hc]
      exact ⟨.assigned d c, effect_reply rfl rfl (fun _ _ h => h) (Nat.le_refl _) (fun _ => rfl) (by simp) fun x hx => same _ _⟩
    · simp [State.fail] at hub
  | drop o =>
    simp only [State.api] at hub ⊢
    split at hub
    · rename_i g hg
      try simp only [hg]
      split at hub
      · simp [State.fail] at hub
      · split at hub
        · simp [State.fail] at hub
        · rename_i h1 h2
          rw [if_neg h1, if_neg h2]
          refine ⟨.dropped o (some g), effect_reply rfl rfl (fun _ _ h => h) (Nat.le_refl _) (fun _ => rfl) (by simp) fun x hx => ?_⟩
          by_cases e : x = g
          · subst e; exact .inl ⟨true, by simp, fun h => absurd h h2⟩
          · exact .same (upd_other _ _ e)
    · rename_i hg
      try simp only [hg]
      exact ⟨.dropped o none, effect_reply rfl rfl (fun _ _ h => h) (Nat.le_refl _) (fun _ => rfl) (by simp) fun x hx => same _ _⟩
    · simp [State.fail] at hub
  | work n =>
    exact ⟨.work _ n, effect_reply rfl rfl (fun _ _ h => h) (Nat.le_refl _) (fun _ => rfl) (by simp) fun x hx => same _ _⟩

/-- Returning to the caller of begin() or ++. -/
theorem after_effect {s : State σ V E} {g : Nat} {c : Call} (hB : ∀ i, s.ni ≤ i → s.it i = none) (hub : (s.after g c).ub = none) :
    ∃ e, (s.after g c).log = s.log ++ [e] ∧ (∀ x, out x e = none) ∧ (∀ k, e ≠ .ran k) ∧ (∀ x k v, e ≠ .adv x k v) ∧ (∀ x v, e ≠ .poked x v) ∧
      (s.after g c).stack = s.stack ∧ (s.after g c).nf = s.nf ∧ (∀ i h, s.it i = some h → c ≠ .inc i → (s.after g c).it i = some h) ∧
      ∀ x, (∀ k t, s.stack ≠ (x, k) :: t) → (s.after g c).fr x = s.fr x := by
  have newIt : ∀ (x : Option (Option Nat)) i h, s.it i = some h → upd s.it s.ni x i = some h := by
    intro x i h hit
    have : i ≠ s.ni := by rintro rfl; have := hB s.ni (Nat.le_refl _); simp [hit] at this
    rw [upd_other _ _ this]; exact hit
  have fin : ∀ (s1 : State σ V E) (e : Ev V E) (r : Resp V E), s1.log = s.log → s1.stack = s.stack → s1.nf = s.nf → s1.fr = s.fr →
      (∀ i h, s.it i = some h → c ≠ .inc i → s1.it i = some h) → (∀ x, out x e = none) → (∀ k, e ≠ .ran k) → (∀ x k v, e ≠ .adv x k v) → (∀ x v, e ≠ .poked x v) →
      ∃ e', ((s1.emit e).reply r).log = s.log ++ [e'] ∧ (∀ x, out x e' = none) ∧ (∀ k, e' ≠ .ran k) ∧ (∀ x k v, e' ≠ .adv x k v) ∧ (∀ x v, e' ≠ .poked x v) ∧
      ((s1.emit e).reply r).stack = s.stack ∧ ((s1.emit e).reply r).nf = s.nf ∧ (∀ i h, s.it i = some h → c ≠ .inc i → ((s1.emit e).reply r).it i = some h) ∧
      ∀ x, (∀ k t, s.stack ≠ (x, k) :: t) → ((s1.emit e).reply r).fr x = s.fr x := by
    intro s1 e r h1 h2 h3 h4 h5 h6 h7 h8 h9
    refine ⟨e, by rw [reply_log]; simp [State.emit, h1], h6, h7, h8, h9, by rw [reply_stack]; exact h2, by rw [reply_nf]; exact h3, ?_, ?_⟩
    · rw [reply_it]; exact h5
    · intro x hx
      rw [reply_fr _ _ _ (by simpa [State.emit, h2] using hx)]
      simp [State.emit, h4]
  cases c with
  | inc i =>
    simp only [State.after, State.afterInc] at hub ⊢
    split at hub
    · rename_i h hh
      try simp only [hh]
      split at hub
      · simp [State.fail] at hub
      · rename_i hf
        rw [if_neg hf]
        split at hub
        · rename_i hv
          try simp only [hv]
          have hit : ∀ i' h', s.it i' = some h' → Call.inc i ≠ Call.inc i' → upd s.it i (some none) i' = some h' := by
            intro i' h' hi' hne
            rw [upd_other _ _ (by rintro rfl; exact hne rfl)]; exact hi'
          split at hub
          · rename_i e he
            try simp only [he]
            exact fin { s with it := upd s.it i (some none) } (.gotExc g (.inc i) e) (.threw e) rfl rfl rfl rfl hit (fun _ => rfl) (by simp) (by simp) (by simp)
          · rename_i he
            try simp only [he]
            exact fin { s with it := upd s.it i (some none) } (.gotEnd g i) (.iter i) rfl rfl rfl rfl hit (fun _ => rfl) (by simp) (by simp) (by simp)
        · rename_i v hv
          try simp only [hv]
          exact fin _ _ _ rfl rfl rfl rfl (fun _ _ h _ => h) (fun _ => rfl) (by simp) (by simp) (by simp)
    · simp [State.fail] at hub
    · simp [State.fail] at hub
  | begin o =>
    simp only [State.after, State.afterBegin] at hub ⊢
    split at hub
    · rename_i h hh
      try simp only [hh]
      split at hub
      · simp [State.fail] at hub
      · rename_i hne
        rw [if_neg hne]
        split at hub
        · simp [State.fail] at hub
        · rename_i hf
          rw [if_neg hf]
          split at hub
          · rename_i hv
            try simp only [hv]
            split at hub
            · rename_i e he
              try simp only [he]
              exact fin _ _ _ rfl rfl rfl rfl (fun _ _ h _ => h) (fun _ => rfl) (by simp) (by simp) (by simp)
            · rename_i he
              try simp only [he]
              exact fin _ _ _ rfl rfl rfl rfl (fun i h hit _ => newIt _ i h hit) (fun _ => rfl) (by simp) (by simp) (by simp)
          · rename_i v hv
            try simp only [hv]
            exact fin _ _ _ rfl rfl rfl rfl (fun i h hit _ => newIt _ i h hit) (fun _ => rfl) (by simp) (by simp) (by simp)
    · simp [State.fail] at hub
    · simp [State.fail] at hub

end QCoro.Gen
