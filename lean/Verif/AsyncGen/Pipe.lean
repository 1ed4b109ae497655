import Verif.AsyncGen.Told
/-!
C75: pipelines of asynchronous generators.  A coroutine that loops over a generator (`QCORO_FOREACH`, `qcoroasyncgenerator.h:389-392`) and, for
every value, does any work, awaits anything and co_yields values of its own – beside arbitrary other coroutines – puts out exactly what its
loop body makes of what the generator puts out.
-/
set_option linter.unusedSimpArgs false
namespace QCoro.AGen
variable {σ V E τ : Type}

/-! ### Specification -/

/-- What a coroutine puts out: the values it co_yields, and how it ends (`none`: it returns, `some e`: exception `e` leaves it).
Specification, no counterpart in /repo. -/
inductive Out (V E : Type)
  | val (v : V)
  | stop (f : Option E)
deriving DecidableEq, Repr

/-- Specification, no counterpart in /repo. -/
def out (x : Nat) : Ev V E → Option (Out V E)
  | .yielded g v => if g = x then some (.val v) else none
  | .returned g => if g = x then some (.stop none) else none
  | .raised g e => if g = x then some (.stop (some e)) else none
  | .finished g f => if g = x then some (.stop f) else none
  | _ => none

/-- Everything coroutine `x` put out, in order. Specification, no counterpart in /repo. -/
def outs (x : Nat) (log : List (Ev V E)) : List (Out V E) := log.filterMap (out x)

/-- The values among what a coroutine put out. Specification, no counterpart in /repo. -/
def vals (l : List (Out V E)) : List V := l.filterMap (fun | .val v => some v | .stop _ => none)

/-- The values coroutine `c` read from generator `g`, in order. Specification, no counterpart in /repo. -/
def readsBy (c g : Nat) (log : List (Ev V E)) : List V :=
  log.filterMap (fun | .read k g' _ v => if k = c ∧ g' = g then some v else none | _ => none)

/-- All that code which co_yields the values `w.1` and then ends with `w.2` puts out. Specification, no counterpart in /repo. -/
def stream (w : List V × Option E) : List (Out V E) := w.1.map .val ++ [.stop w.2]

/-- What a loop makes of the values it reads: from local variables `t` and value `v` the loop body co_yields `(body t v).1` and goes on with
new local variables, or leaves the coroutine (`.inr`); `fin t`: what follows when the loop is over; `fail t e`: when co_await begin()/++ throws `e`.
Specification, no counterpart in /repo. -/
structure Stage (τ V E : Type) where
  body : τ → V → List V × (τ ⊕ Option E)
  fin : τ → List V × Option E
  fail : τ → E → List V × Option E

/-- All that one pass through the loop body puts out. Specification, no counterpart in /repo. -/
def Stage.pass (K : Stage τ V E) (t : τ) (v : V) : List (Out V E) :=
  (K.body t v).1.map .val ++ match (K.body t v).2 with | .inl _ => [] | .inr f => [.stop f]

/-- `K.Through t Y Z`: while the source has put out `Y`, the loop has put out `Z`.  The source is never ahead by more than the value in work:
it puts out another value, or ends, only after the body is through with the previous one. Specification, no counterpart in /repo. -/
inductive Stage.Through (K : Stage τ V E) : τ → List (Out V E) → List (Out V E) → Prop
  | wait (t : τ) : Through K t [] []
  | fin (t : τ) (Z : List (Out V E)) : Z <+: stream (K.fin t) → Through K t [.stop none] Z
  | fail (t : τ) (e : E) (Z : List (Out V E)) : Z <+: stream (K.fail t e) → Through K t [.stop (some e)] Z
  | last (t : τ) (v : V) (Z : List (Out V E)) : Z <+: K.pass t v → Through K t [.val v] Z
  | next (t : τ) (v : V) (t' : τ) (Y Z : List (Out V E)) : (K.body t v).2 = .inl t' → Through K t' Y Z →
      Through K t (.val v :: Y) ((K.body t v).1.map .val ++ Z)

/-- The result of the whole loop over a source that co_yields `vs` and ends with `f`. Specification, no counterpart in /repo. -/
def Stage.apply (K : Stage τ V E) (t : τ) : List V → Option E → List V × Option E
  | [], none => K.fin t
  | [], some e => K.fail t e
  | v :: vs, f =>
    match (K.body t v).2 with
    | .inl t' => ((K.body t v).1 ++ (K.apply t' vs f).1, (K.apply t' vs f).2)
    | .inr x => ((K.body t v).1, x)

/-- Code inside the loop body: from state `c`, told `r`, it co_yields `ws` with any work and co_awaits in between, then goes to the next
round – awaits ++i and continues in state `.inl c'` – or leaves the coroutine (`.inr`). Specification of user code, no counterpart in /repo. -/
inductive InBody (P : Prog σ V E) (i : Nat) : σ → Resp V E → List V → σ ⊕ Option E → Prop
  | work {c r c' n ws q} : P.next c r = (c', .work n) → InBody P i c' .unit ws q → InBody P i c r ws q
  | await {c r c' ws q} : P.next c r = (c', .awaitExt) → InBody P i c' .unit ws q → InBody P i c r ws q
  | yield {c r c' w ws q} : P.next c r = (c', .yield w) → InBody P i c' (.resumed w) ws q → InBody P i c r (w :: ws) q
  | next {c r c'} : P.next c r = (c', .inc i) → InBody P i c r [] (.inl c')
  | ret {c r c'} : P.next c r = (c', .ret) → InBody P i c r [] (.inr none)
  | throw {c r c' e} : P.next c r = (c', .throw e) → InBody P i c r [] (.inr (some e))

/-- `P` contains `for (auto it = co_await o.begin(); it != o.end(); co_await ++it) { auto &v = *it; body }` with what follows it, and it computes
`K`: `head t` is the state in which begin() and ++ continue, `t` being the local variables (`qcoroasyncgenerator.h:389-392`).
Specification of user code. -/
structure IsStage (P : Prog σ V E) (K : Stage τ V E) where
  head : τ → σ
  test : τ → Nat → σ
  read : τ → Nat → σ
  hTest : ∀ t i, P.next (head t) (.iter i) = (test t i, .isEnd i)
  hRead : ∀ t i, P.next (test t i) (.flag false) = (read t i, .deref i)
  hBody : ∀ t i v, InBody P i (read t i) (.val v) (K.body t v).1 (match (K.body t v).2 with | .inl t' => .inl (head t') | .inr f => .inr f)
  hFin : ∀ t i, Emits P (test t i) (.flag true) (K.fin t).1 (K.fin t).2
  hFail : ∀ t e, Emits P (head t) (.threw e) (K.fail t e).1 (K.fail t e).2

/-! ### What the steps of others leave alone -/

@[simp] theorem outs_nil (x : Nat) : outs x ([] : List (Ev V E)) = [] := rfl
theorem outs_append (x : Nat) (a b : List (Ev V E)) : outs x (a ++ b) = outs x a ++ outs x b := by simp [outs]
theorem readsBy_append (c g : Nat) (a b : List (Ev V E)) : readsBy c g (a ++ b) = readsBy c g a ++ readsBy c g b := by simp [readsBy]
@[simp] theorem readsBy_nil (c g : Nat) : readsBy c g ([] : List (Ev V E)) = [] := rfl

/-- Nothing in `l` is an output of `x` or a read by `x`; all advances in it are by `k`. -/
def Still (x k : Nat) (l : List (Ev V E)) : Prop :=
  outs x l = [] ∧ (∀ g, readsBy x g l = []) ∧ ∀ g k' c, Ev.adv g k' c ∈ l → k' = k

/-- What an action of somebody else may do to coroutine `x`. -/
def Apart (x : Nat) (f f' : Frame σ V E) (l : List (Ev V E)) : Prop :=
  (∃ d, f' = { f with freed := d }) ∨
  (∃ k c, Ev.adv x k c ∈ l ∧ (f.status = .initial ∨ f.status = .atYield) ∧ f' = { f with consumer := some k, status := .running, inp := f.wake }) ∨
  (f.status = .waitExt ∧ f' = { f with status := .running, inp := .unit }) ∨
  (∃ i v, Ev.poked i x v ∈ l)

theorem Apart.same {x : Nat} {f f' : Frame σ V E} {l : List (Ev V E)} (h : f' = f) : Apart x f f' l := .inl ⟨f.freed, h⟩

theorem transfer_other {s : State σ V E} {k x : Nat} (hne : x ≠ k) (hub : (s.transfer k).ub = none) :
    ∃ l, (s.transfer k).log = s.log ++ l ∧ Still x k l ∧ ((s.fr k).consumer ≠ some x → (s.transfer k).fr x = s.fr x) := by
  simp only [State.transfer] at hub ⊢
  split at hub
  · simp [State.fail] at hub
  · rename_i k' hk'
    split at hub
    · simp [State.fail] at hub
    · rename_i hf
      split at hub
      · rename_i g c hs
        simp only [hk', hf, hs, Bool.false_eq_true, if_false]
        cases c <;> simp only [State.awaitResume] <;> (repeat' split) <;>
          (simp [State.emit, State.reply, Still, outs, out, readsBy, List.filterMap_cons]
           intro hx; simp [upd_other, hne, Ne.symm hx])
      · simp [State.fail] at hub

theorem act_other {s : State σ V E} {k x : Nat} (hne : x ≠ k) (hx : x < s.nf) (a : Act σ V E)
    (hub : (s.act k a).ub = none) :
    ∃ l, (s.act k a).log = s.log ++ l ∧ Still x k l ∧
      ((a.simple = true ∨ ((s.fr k).isGen = true → (s.fr k).consumer ≠ some x)) → Apart x (s.fr x) ((s.act k a).fr x) l) := by
  have hxn : x ≠ s.nf := by omega
  have adv : ∀ g c bad, (s.advance k g c bad).ub = none → ∃ l, (s.advance k g c bad).log = s.log ++ l ∧ Still x k l ∧
      ((a.simple = true ∨ ((s.fr k).isGen = true → (s.fr k).consumer ≠ some x)) → Apart x (s.fr x) ((s.advance k g c bad).fr x) l) := by
    intro g c bad hub
    simp only [State.advance] at hub ⊢
    split at hub
    · simp [State.fail] at hub
    · rename_i hf
      simp only [hf]
      have main : (s.fr g).status = .initial ∨ (s.fr g).status = .atYield →
          Apart x (s.fr x) (upd (upd s.fr k { s.fr k with status := .waitGen g c }) g
            { upd s.fr k { s.fr k with status := .waitGen g c } g with consumer := some k, status := .running, inp := (upd s.fr k { s.fr k with status := .waitGen g c } g).wake } x) [.adv g k c] := by
        intro hg
        by_cases e : x = g
        · subst e
          refine .inr (.inl ⟨k, c, by simp, hg, ?_⟩)
          simp [upd_other _ _ hne]
        · exact .same (by rw [upd_other _ _ e, upd_other _ _ hne])
      split at hub
      · rename_i hg
        exact ⟨[.adv g k c], by simp [State.emit], by simp [Still, outs, out, readsBy, List.filterMap_cons]; intros; assumption, fun _ => main (.inl hg)⟩
      · rename_i hg
        exact ⟨[.adv g k c], by simp [State.emit], by simp [Still, outs, out, readsBy, List.filterMap_cons]; intros; assumption, fun _ => main (.inr hg)⟩
      · simp [State.fail] at hub
      · simp [State.fail] at hub
      · simp [State.fail] at hub
  have tr : ∀ (s1 : State σ V E) (e : Ev V E), s1.log = s.log ++ [e] → out x e = none → (∀ g, readsBy x g [e] = []) → s1.fr x = s.fr x →
      (∀ g k c, e ≠ .adv g k c) → (s1.transfer k).ub = none →
      ∃ l, (s1.transfer k).log = s.log ++ l ∧ Still x k l ∧ ((s1.fr k).consumer ≠ some x → Apart x (s.fr x) ((s1.transfer k).fr x) l) := by
    intro s1 e hl ho hr hf hcc hub
    obtain ⟨l, h1, h2, h3⟩ := transfer_other hne hub
    refine ⟨e :: l, by rw [h1, hl]; simp, ⟨?_, fun g => ?_, ?_⟩, fun hc => .same (by rw [h3 hc, hf])⟩
    · rw [outs, List.filterMap_cons, ho]; exact h2.1
    · have := hr g
      rw [show e :: l = [e] ++ l from rfl, readsBy_append, this, h2.2.1]; rfl
    · intro g k' c hm; simp only [List.mem_cons] at hm; rcases hm with hm | hm
      · exact absurd hm.symm (hcc _ _ _)
      · exact h2.2.2 g k' c hm
  cases a with
  | begin o =>
    simp only [State.act] at hub ⊢
    split at hub
    · rename_i g hg
      try simp only [hg]
      exact adv _ _ _ hub
    · rename_i hg
      try simp only [hg]
      exact ⟨[.emptyBegin k s.ni], by simp [State.emit, State.reply], by simp [Still, outs, out, readsBy, List.filterMap_cons], fun _ => .same (by simp [State.emit, State.reply, upd_other _ _ hne])⟩
    · simp [State.fail] at hub
  | inc i =>
    simp only [State.act] at hub ⊢
    split at hub
    · rename_i g hg
      try simp only [hg]
      exact adv _ _ _ hub
    · simp [State.fail] at hub
    · simp [State.fail] at hub
  | yield v =>
    simp only [State.act] at hub ⊢
    split at hub
    · rename_i hg
      rw [if_pos hg]
      obtain ⟨l, h1, h2, h3⟩ := tr _ (.yielded k v) (by simp [State.emit]) (by simp [out, Ne.symm hne]) (by simp [readsBy]) (by simp [State.emit, upd_other _ _ hne]) (by simp) hub
      refine ⟨l, h1, h2, fun hc => h3 ?_⟩
      have hc := hc.resolve_left (by simp [Act.simple])
      simpa [State.emit] using hc hg
    · simp [State.fail] at hub
  | ret =>
    simp only [State.act] at hub ⊢
    split at hub
    · rename_i hg
      rw [if_pos hg]
      obtain ⟨l, h1, h2, h3⟩ := tr _ (.returned k) (by simp [State.emit]) (by simp [out, Ne.symm hne]) (by simp [readsBy]) (by simp [State.emit, upd_other _ _ hne]) (by simp) hub
      refine ⟨l, h1, h2, fun hc => h3 ?_⟩
      have hc := hc.resolve_left (by simp [Act.simple])
      simpa [State.emit] using hc hg
    · rename_i hg
      rw [if_neg hg]
      exact ⟨[.finished k none], by simp [State.emit], by simp [Still, outs, out, readsBy, List.filterMap_cons, Ne.symm hne], fun _ => .same (by simp [State.emit, upd_other _ _ hne])⟩
  | throw e =>
    simp only [State.act] at hub ⊢
    split at hub
    · rename_i hg
      rw [if_pos hg]
      obtain ⟨l, h1, h2, h3⟩ := tr _ (.raised k e) (by simp [State.emit]) (by simp [out, Ne.symm hne]) (by simp [readsBy]) (by simp [State.emit, upd_other _ _ hne]) (by simp) hub
      refine ⟨l, h1, h2, fun hc => h3 ?_⟩
      have hc := hc.resolve_left (by simp [Act.simple])
      simpa [State.emit] using hc hg
    · rename_i hg
      rw [if_neg hg]
      exact ⟨[.finished k (some e)], by simp [State.emit], by simp [Still, outs, out, readsBy, List.filterMap_cons, Ne.symm hne], fun _ => .same (by simp [State.emit, upd_other _ _ hne])⟩
  | poke i v =>
    simp only [State.act] at hub ⊢
    repeat' split at hub
    all_goals (try (simp [State.fail] at hub; done))
    rename_i g hg hf w _ _ hs hv
    simp only [hg, hf, hs, hv]
    refine ⟨[.poked i g v], by simp [State.emit, State.reply], by simp [Still, outs, out, readsBy, List.filterMap_cons], fun _ => ?_⟩
    by_cases e : x = g
    · subst e; exact .inr (.inr (.inr ⟨i, v, by simp⟩))
    · exact .same (by simp [State.emit, State.reply, upd_other _ _ hne, upd_other _ _ e])
  | drop o =>
    simp only [State.act] at hub ⊢
    split at hub
    · rename_i g hg
      try simp only [hg]
      split at hub
      · simp [State.fail] at hub
      · split at hub
        · simp [State.fail] at hub
        · rename_i h1 h2
          rw [if_neg h1, if_neg h2]
          refine ⟨[.dropped o (some g)], by simp [State.emit, State.reply], by simp [Still, outs, out, readsBy, List.filterMap_cons], fun _ => ?_⟩
          by_cases e : x = g
          · subst e; exact .inl ⟨true, by simp [State.emit, State.reply, upd_other _ _ hne]⟩
          · exact .same (by simp [State.emit, State.reply, upd_other _ _ hne, upd_other _ _ e])
    · rename_i hg
      try simp only [hg]
      exact ⟨[.dropped o none], by simp [State.emit, State.reply], by simp [Still, outs, out, readsBy, List.filterMap_cons], fun _ => .same (by simp [State.emit, State.reply, upd_other _ _ hne])⟩
    · simp [State.fail] at hub
  | deref i =>
    simp only [State.act] at hub ⊢
    repeat' split at hub
    all_goals (try (simp [State.fail] at hub; done))
    rename_i g hg hf w _ _ hs hv
    simp only [hg, hf, hs, hv]
    exact ⟨[.read k g i _], by simp [State.emit, State.reply]; rfl, by simp [Still, outs, out, readsBy, List.filterMap_cons, Ne.symm hne], fun _ => .same (by simp [State.emit, State.reply, upd_other _ _ hne])⟩
  | create b =>
    exact ⟨[.created s.nf s.no], by simp [State.act, State.emit, State.reply], by simp [Still, outs, out, readsBy, List.filterMap_cons], fun _ => .same (by simp [State.act, State.emit, State.reply, upd_other _ _ hne, upd_other _ _ hxn])⟩
  | mkNull =>
    exact ⟨[.mkNull s.no], by simp [State.act, State.emit, State.reply], by simp [Still, outs, out, readsBy, List.filterMap_cons], fun _ => .same (by simp [State.act, State.emit, State.reply, upd_other _ _ hne])⟩
  | copyIt i =>
    simp only [State.act] at hub ⊢
    split at hub
    · rename_i h hi
      try simp only [hi]
      exact ⟨[.copied i s.ni], by simp [State.emit, State.reply], by simp [Still, outs, out, readsBy, List.filterMap_cons], fun _ => .same (by simp [State.emit, State.reply, upd_other _ _ hne])⟩
    · simp [State.fail] at hub
  | isEnd i =>
    simp only [State.act] at hub ⊢
    split at hub
    · rename_i h hi
      try simp only [hi]
      exact ⟨[.tested i (h == none)], by simp [State.emit, State.reply], by simp [Still, outs, out, readsBy, List.filterMap_cons], fun _ => .same (by simp [State.emit, State.reply, upd_other _ _ hne])⟩
    · simp [State.fail] at hub
  | moveNew o =>
    simp only [State.act] at hub ⊢
    split at hub
    · rename_i h hi
      try simp only [hi]
      exact ⟨[.moved o s.no], by simp [State.emit, State.reply], by simp [Still, outs, out, readsBy, List.filterMap_cons], fun _ => .same (by simp [State.emit, State.reply, upd_other _ _ hne])⟩
    · simp [State.fail] at hub
  | moveAssign d c =>
    simp only [State.act] at hub ⊢
    split at hub
    · rename_i h1 h2 hd hc
      try simp only [hd, hc]
      exact ⟨[.assigned d c], by simp [State.emit, State.reply], by simp [Still, outs, out, readsBy, List.filterMap_cons], fun _ => .same (by simp [State.emit, State.reply, upd_other _ _ hne])⟩
    · simp [State.fail] at hub
  | swap c d =>
    simp only [State.act] at hub ⊢
    split at hub
    · rename_i h1 h2 hd hc
      try simp only [hd, hc]
      exact ⟨[.swapped c d], by simp [State.emit, State.reply], by simp [Still, outs, out, readsBy, List.filterMap_cons], fun _ => .same (by simp [State.emit, State.reply, upd_other _ _ hne])⟩
    · simp [State.fail] at hub
  | work n =>
    exact ⟨[.work k n], by simp [State.act, State.emit, State.reply], by simp [Still, outs, out, readsBy, List.filterMap_cons], fun _ => .same (by simp [State.act, State.emit, State.reply, upd_other _ _ hne])⟩
  | awaitExt =>
    exact ⟨[.suspended k], by simp [State.act, State.emit, State.reply], by simp [Still, outs, out, readsBy, List.filterMap_cons], fun _ => .same (by simp [State.act, State.emit, State.reply, upd_other _ _ hne])⟩

theorem act_simple (s : State σ V E) (k : Nat) (a : Act σ V E) (ha : a.simple = true) :
    ∃ l, (s.act k a).log = s.log ++ l ∧ ∀ x, outs x l = [] := by
  cases a with
  | yield v => simp [Act.simple] at ha
  | ret => simp [Act.simple] at ha
  | throw e => simp [Act.simple] at ha
  | _ =>
    simp only [State.act, State.advance]
    repeat' split
    all_goals simp [State.emit, State.reply, State.fail, outs]
    all_goals first
      | (intro x; rfl)
      | exact ⟨[], rfl, by simp⟩

theorem transfer_it {s : State σ V E} {k i : Nat} {h : Option Nat} (hit : s.it i = some h) (hn : i < s.ni)
    (hc : ∀ k' g, (s.fr k).consumer = some k' → (s.fr k').status ≠ .waitGen g (.inc i)) : (s.transfer k).it i = some h := by
  have hne : i ≠ s.ni := by omega
  simp only [State.transfer]
  split
  · exact hit
  · rename_i k' hk'
    split
    · exact hit
    · split
      · rename_i g c hs
        cases c with
        | begin =>
          simp only [State.awaitResume]
          repeat' split
          all_goals simp [State.emit, State.reply, upd_other _ _ hne, hit]
        | inc j =>
          have hj : i ≠ j := by rintro rfl; exact hc k' g hk' hs
          simp only [State.awaitResume]
          repeat' split
          all_goals simp [State.emit, State.reply, upd_other _ _ hj, hit]
      · exact hit

theorem act_it {s : State σ V E} (hi : Inv s) {k i : Nat} {h : Option Nat} (hk : (s.fr k).status = .running) (a : Act σ V E)
    (hit : s.it i = some h) (hh : a.simple = true ∨ h ≠ some k) : (s.act k a).it i = some h := by
  have hn : i < s.ni := by
    rcases Nat.lt_or_ge i s.ni with h | h
    · exact h
    · have := hi.itB i h; simp [hit] at this
  have hne : i ≠ s.ni := by omega
  have adv : ∀ g c bad, (s.advance k g c bad).it i = some h := by
    intro g c bad; simp only [State.advance]; repeat' split
    all_goals exact hit
  have tr : ∀ s1 : State σ V E, s1.it = s.it → s1.ni = s.ni → (∀ x, x ≠ k → s1.fr x = s.fr x) → (s1.fr k).consumer = (s.fr k).consumer →
      (∀ g c, (s1.fr k).status ≠ .waitGen g c) → (s.fr k).isGen = true → h ≠ some k → (s1.transfer k).it i = some h := by
    intro s1 e1 e2 e3 e4 e5 hg hh
    refine transfer_it (by rw [e1]; exact hit) (by rw [e2]; exact hn) ?_
    intro k' g hk' hs
    by_cases e : k' = k
    · subst e; exact e5 _ _ hs
    · rw [e3 k' e] at hs
      rw [e4] at hk'
      have hf := (hi.wf k).run hk
      obtain ⟨c, hw⟩ := hi.cons k k' hf hg (by simp [hk, Status.active]) hk'
      rw [hs] at hw
      cases hw
      have := hi.inc k' k i hs
      rw [hit] at this
      cases this
      exact hh rfl
  cases a with
  | begin o => simp only [State.act]; split <;> first | exact adv _ _ _ | simp [State.emit, State.reply, State.fail, upd_other _ _ hne, hit]
  | inc j => simp only [State.act]; split <;> first | exact adv _ _ _ | simp [State.emit, State.reply, State.fail, upd_other _ _ hne, hit]
  | yield v =>
    have hh := hh.resolve_left (by simp [Act.simple])
    simp only [State.act]
    split
    · rename_i hg
      refine tr _ rfl rfl ?_ ?_ ?_ hg hh
      · intro x hx; simp [State.emit, upd_other _ _ hx]
      · simp [State.emit]
      · simp [State.emit]
    · exact hit
  | ret =>
    have hh := hh.resolve_left (by simp [Act.simple])
    simp only [State.act]
    split
    · rename_i hg
      refine tr _ rfl rfl ?_ ?_ ?_ hg hh
      · intro x hx; simp [State.emit, upd_other _ _ hx]
      · simp [State.emit]
      · simp [State.emit]
    · exact hit
  | throw e =>
    have hh := hh.resolve_left (by simp [Act.simple])
    simp only [State.act]
    split
    · rename_i hg
      refine tr _ rfl rfl ?_ ?_ ?_ hg hh
      · intro x hx; simp [State.emit, upd_other _ _ hx]
      · simp [State.emit]
      · simp [State.emit]
    · exact hit
  | _ =>
    simp only [State.act]
    repeat' split
    all_goals simp [State.emit, State.reply, State.fail, upd_other _ _ hne, hit]

/-- What a step of the program in which coroutine `x` does not act does to `x`. -/
theorem step_other (P : Prog σ V E) {s : State σ V E} (hi : Inv s) (hu : s.ub = none) (op : Op σ) (hub : (step P s op).ub = none) {x : Nat}
    (hx : x < s.nf) (h1 : op = .tick → ∀ rest, s.stack ≠ x :: rest) :
    ∃ l, (step P s op).log = s.log ++ l ∧ outs x l = [] ∧ (∀ g, readsBy x g l = []) ∧
      (∀ g k c, Ev.adv g k c ∈ l → op = .tick ∧ ∃ rest, s.stack = k :: rest) ∧
      ((op = .tick → ∀ k rest st, s.stack = k :: rest → (s.fr k).st = some st →
          (P.next st (s.fr k).inp).2.simple = true ∨ ∀ c, (s.fr x).status ≠ .waitGen k c) →
        Apart x (s.fr x) ((step P s op).fr x) l) := by
  have hxn : x ≠ s.nf := by omega
  cases op with
  | spawn b =>
    exact ⟨[.spawned s.nf], by simp [step, hu, State.emit], by simp [outs, out], by simp [readsBy], by simp,
      fun _ => .same (by simp [step, hu, State.emit, upd_other _ _ hxn])⟩
  | ext c =>
    simp only [step, hu, Option.isSome, Bool.false_eq_true, if_false] at hub ⊢
    split at hub
    · rename_i hw
      split at hub
      · simp [State.fail] at hub
      · rename_i hf
        rw [if_pos hw, if_neg hf]
        refine ⟨[.resumed c], by simp [State.emit], by simp [outs, out], by simp [readsBy], by simp, fun _ => ?_⟩
        by_cases e : x = c
        · subst e; exact .inr (.inr (.inl ⟨hw, by simp [State.emit]⟩))
        · exact .same (by simp [State.emit, upd_other _ _ e])
    · rename_i hw
      rw [if_neg hw]
      exact ⟨[], by simp, rfl, fun _ => rfl, by simp, fun _ => .same rfl⟩
  | tick =>
    cases hs : s.stack with
    | nil =>
      have e : step P s .tick = s := by simp [step, hu, hs]
      rw [e]
      exact ⟨[], by simp, rfl, fun _ => rfl, by simp, fun _ => .same rfl⟩
    | cons k rest =>
      have hne : x ≠ k := by rintro rfl; exact h1 rfl rest hs
      have hrun : (s.fr k).status = .running := (hi.cur k).2 (by simp [hs])
      obtain ⟨st, hst⟩ := Option.isSome_iff_exists.1 ((hi.wf k).st (by simp [hrun]))
      have e : step P s .tick = (({ s with fr := upd s.fr k { s.fr k with st := some (P.next st (s.fr k).inp).1, inp := .unit } } : State σ V E).emit (.ran k)).act k (P.next st (s.fr k).inp).2 := by
        simp [step, hu, hs, hst]
      rw [e] at hub ⊢
      obtain ⟨l, l1, l2, l3⟩ := act_other (s := ({ s with fr := upd s.fr k { s.fr k with st := some (P.next st (s.fr k).inp).1, inp := .unit } } : State σ V E).emit (.ran k))
        (x := x) hne (by simpa [State.emit] using hx) _ hub
      refine ⟨.ran k :: l, by rw [l1]; simp [State.emit], ?_, ?_, ?_, ?_⟩
      · simp only [outs, List.filterMap_cons, out]; exact l2.1
      · intro g; simp only [readsBy, List.filterMap_cons]; exact l2.2.1 g
      · intro g k' c hm
        simp only [List.mem_cons, reduceCtorEq, false_or] at hm
        exact ⟨rfl, rest, by rw [l2.2.2 g k' c hm]⟩
      · intro h2
        have h3 := l3 (by
          rcases h2 rfl k rest st rfl hst with h | h
          · exact .inl h
          · right
            intro hg hc
            simp [State.emit] at hg hc
            obtain ⟨c, hw⟩ := hi.cons k x ((hi.wf k).run hrun) hg (by simp [hrun, Status.active]) hc
            exact h c hw)
        have ex : (({ s with fr := upd s.fr k { s.fr k with st := some (P.next st (s.fr k).inp).1, inp := .unit } } : State σ V E).emit (.ran k)).fr x = s.fr x := by
          simp [State.emit, upd_other _ _ hne]
        rw [ex] at h3
        rcases h3 with h | ⟨k', c, h, h'⟩ | h | ⟨i, v, h⟩
        · exact .inl h
        · exact .inr (.inl ⟨k', c, by simp [h], h'⟩)
        · exact .inr (.inr (.inl h))
        · exact .inr (.inr (.inr ⟨i, v, by simp [h]⟩))

theorem step_it (P : Prog σ V E) {s : State σ V E} (hi : Inv s) (op : Op σ) {i : Nat} {h : Option Nat} (hit : s.it i = some h)
    (h1 : op = .tick → ∀ k rest, s.stack = k :: rest → h ≠ some k) : (step P s op).it i = some h := by
  simp only [step]
  split
  · exact hit
  · split
    · exact hit
    · repeat' split
      all_goals exact hit
    · rename_i k rest hs
      have hrun : (s.fr k).status = .running := (hi.cur k).2 (by simp [hs])
      split
      · rename_i st hst
        have i1 := hi.bodySt k (P.next st (s.fr k).inp).1 .unit
        have i2 := i1.emitQuiet (.ran k) (i1.runnable (k := k) (by simp [hs])) rfl
        exact act_it i2 (by simp [State.emit, hrun]) _ hit (.inr (h1 rfl k rest hs))
      · exact hit
    · exact hit

theorem step_nf (P : Prog σ V E) (s : State σ V E) (op : Op σ) : s.nf ≤ (step P s op).nf := by
  have tr : ∀ (s : State σ V E) k, (s.transfer k).nf = s.nf := by
    intro s k; simp only [State.transfer]
    split
    · rfl
    · split
      · rfl
      · split
        · rename_i c _; cases c <;> simp only [State.awaitResume] <;> (repeat' split) <;> rfl
        · rfl
  have ad : ∀ (s : State σ V E) k g c b, (s.advance k g c b).nf = s.nf := by
    intro s k g c b; simp only [State.advance]; repeat' split
    all_goals rfl
  simp only [step]
  repeat' split
  all_goals (try exact Nat.le_refl _)
  · exact Nat.le_succ _
  · rename_i k rest _ _ st hst
    generalize (P.next st (s.fr k).inp) = p
    obtain ⟨p1, a⟩ := p
    cases a <;> simp only [State.act] <;> (repeat' split) <;>
      first
      | exact Nat.le_refl _
      | exact Nat.le_succ _
      | (rw [tr]; exact Nat.le_refl _)
      | (rw [ad]; exact Nat.le_refl _)

end QCoro.AGen
