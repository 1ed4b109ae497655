import Verif.AsyncGen.Act
/-
The `QCORO_FOREACH` loop (`qcoroasyncgenerator.h:389-392`): a consumer coroutine that creates a generator, awaits
begin(), and for every value runs a loop body that may itself suspend, then awaits ++.
-/
set_option linter.unusedSimpArgs false
namespace QCoro.AGen
variable {σ V E : Type}

/-- `Emits P b r vs f`: body `b` resumed with `r` co_yields exactly `vs`, with any co_awaits and other work in between,
then returns (`f = none`) or throws `e` (`f = some e`). -/
inductive Emits (P : Prog σ V E) : σ → Resp V E → List V → Option E → Prop
  | work {b r b' n vs f} : P.next b r = (b', .work n) → Emits P b' .unit vs f → Emits P b r vs f
  | await {b r b' vs f} : P.next b r = (b', .awaitExt) → Emits P b' .unit vs f → Emits P b r vs f
  | yield {b r b' v vs f} : P.next b r = (b', .yield v) → Emits P b' (.resumed v) vs f → Emits P b r (v :: vs) f
  | ret {b r b'} : P.next b r = (b', .ret) → Emits P b r [] none
  | throw {b r b' e} : P.next b r = (b', .throw e) → Emits P b r [] (some e)

/-- `P` contains the coroutine `auto g = b(); QCORO_FOREACH(v, g) { body }` starting at state `c0`:
`for (auto it = co_await g.begin(); it != g.end(); co_await ++it) { auto &v = *it; body }`.
`body i` holds of the states inside the loop body, which may do work and co_await. -/
structure IsForeach (P : Prog σ V E) (b c0 : σ) where
  c1 : σ
  c2 : σ
  c3 : Nat → σ
  c4 : Nat → σ
  c5 : σ
  body : Nat → σ → Resp V E → Prop
  create : P.next c0 .start = (c1, .create b)
  begin : ∀ o, P.next c1 (.obj o) = (c2, .begin o)
  test : ∀ i, P.next c2 (.iter i) = (c3 i, .isEnd i)
  stop : ∀ i, P.next (c3 i) (.flag true) = (c5, .ret)
  read : ∀ i, P.next (c3 i) (.flag false) = (c4 i, .deref i)
  enter : ∀ i v, body i (c4 i) (.val v)
  step : ∀ i c r, body i c r → (∃ c' n, P.next c r = (c', .work n) ∧ body i c' .unit) ∨
    (∃ c', P.next c r = (c', .awaitExt) ∧ body i c' .unit) ∨ P.next c r = (c2, .inc i)
  rethrow : ∀ e, P.next c2 (.threw e) = (c5, .throw e)

/-- Values read through iterators. -/
def reads (log : List (Ev V E)) : List V := log.filterMap (fun | .read _ _ _ v => some v | _ => none)

theorem reads_append (a b : List (Ev V E)) : reads (a ++ b) = reads a ++ reads b := by simp [reads]

/-- How the loop may have ended: at end() if the producer returned, with the exception if it threw. -/
def Ended (f : Option E) (log : List (Ev V E)) : Prop :=
  (f = none ∧ ∃ i, Ev.gotEnd 1 0 i ∈ log) ∨ (∃ e c, f = some e ∧ Ev.gotExc 1 0 c e ∈ log)

/-- Configurations of the loop. -/
structure Gen1 (s : State σ V E) : Prop where
  ub : s.ub = none
  g0 : (s.fr 0).isGen = false
  f0 : (s.fr 0).freed = false
  g1 : (s.fr 1).isGen = true
  f1 : (s.fr 1).freed = false
  e1 : (s.fr 1).exc = none
  o0 : s.obj 0 = .live (some 1)
  oth : ∀ c, c ≠ 0 → c ≠ 1 → (s.fr c).status = .unborn

inductive Cfg (P : Prog σ V E) {b c0 : σ} (F : IsForeach P b c0) (vs : List V) (f : Option E) (s : State σ V E) : Prop
  | start : s.ub = none → s.stack = [0] → s.nf = 1 → s.no = 0 → s.ni = 0 → (s.fr 0).st = some c0 → (s.fr 0).inp = .start →
      (s.fr 0).status = .running → (s.fr 0).isGen = false → (s.fr 0).freed = false →
      (∀ c, c ≠ 0 → (s.fr c).status = .unborn) → reads s.log = [] → (∀ x, Ev.finished 0 x ∉ s.log) → Emits P b .start vs f → Cfg P F vs f s
  | made : Gen1 s → s.stack = [0] → s.ni = 0 → (s.fr 0).st = some F.c1 → (s.fr 0).inp = .obj 0 →
      (s.fr 0).status = .running → (s.fr 1).st = some b → (s.fr 1).status = .initial ∧ (s.fr 1).value = none →
      reads s.log = [] → (∀ x, Ev.finished 0 x ∉ s.log) → Emits P b .start vs f → Cfg P F vs f s
  | prod (k : Call) (b' : σ) (vs1 vs2 : List V) : Gen1 s →
      (s.stack = [1] ∧ (s.fr 1).status = .running ∨ s.stack = [] ∧ (s.fr 1).status = .waitExt) →
      (s.fr 0).st = some F.c2 → (s.fr 0).status = .waitGen 1 k →
      (k = .begin ∧ s.ni = 0 ∨ k = .inc 0 ∧ s.it 0 = some (some 1)) → (s.fr 1).consumer = some 0 →
      (s.fr 1).st = some b' → ((s.fr 1).status = .running → Emits P b' (s.fr 1).inp vs2 f) →
      ((s.fr 1).status = .waitExt → Emits P b' .unit vs2 f) →
      reads s.log = vs1 → vs = vs1 ++ vs2 → (∀ x, Ev.finished 0 x ∉ s.log) → Cfg P F vs f s
  | got (b' : σ) (v : V) (vs1 vs2 : List V) : Gen1 s → s.stack = [0] → (s.fr 0).status = .running →
      ((s.fr 0).st = some F.c2 ∧ (s.fr 0).inp = .iter 0 ∨ (s.fr 0).st = some (F.c3 0) ∧ (s.fr 0).inp = .flag false) →
      s.it 0 = some (some 1) → (s.fr 1).status = .atYield → (s.fr 1).value = some v → (s.fr 1).st = some b' →
      Emits P b' (.resumed v) vs2 f → reads s.log = vs1 → vs = vs1 ++ v :: vs2 → (∀ x, Ev.finished 0 x ∉ s.log) → Cfg P F vs f s
  | loop (b' c : σ) (v : V) (vs1 vs2 : List V) : Gen1 s → (s.fr 0).st = some c →
      (s.stack = [0] ∧ (s.fr 0).status = .running ∧ F.body 0 c (s.fr 0).inp ∨
       s.stack = [] ∧ (s.fr 0).status = .waitExt ∧ F.body 0 c .unit) →
      s.it 0 = some (some 1) → (s.fr 1).status = .atYield ∧ (s.fr 1).value = some v → (s.fr 1).st = some b' →
      Emits P b' (.resumed v) vs2 f → reads s.log = vs1 → vs = vs1 ++ vs2 → (∀ x, Ev.finished 0 x ∉ s.log) → Cfg P F vs f s
  | over : Gen1 s → s.stack = [0] → (s.fr 0).status = .running → (s.fr 1).status = .done →
      ((s.fr 0).st = some F.c2 ∧ (s.fr 0).inp = .iter 0 ∧ s.it 0 = some none ∧ f = none ∨
       (s.fr 0).st = some (F.c3 0) ∧ (s.fr 0).inp = .flag true ∧ f = none ∨
       ∃ e, (s.fr 0).st = some F.c2 ∧ (s.fr 0).inp = .threw e ∧ f = some e) →
      reads s.log = vs → Ended f s.log → (∀ x, Ev.finished 0 x ∉ s.log) → Cfg P F vs f s
  | done : s.ub = none → s.stack = [] → (s.fr 0).status = .done → (s.fr 1).status = .done →
      (∀ c, c ≠ 0 → c ≠ 1 → (s.fr c).status = .unborn) → reads s.log = vs → Ended f s.log →
      (∀ x, Ev.finished 0 x ∈ s.log ↔ x = f) → Cfg P F vs f s

theorem Ended.mono {f : Option E} {l m : List (Ev V E)} (h : Ended f l) : Ended f (l ++ m) := by
  rcases h with ⟨e, i, h⟩ | ⟨e, c, h1, h2⟩
  · exact .inl ⟨e, i, by simp [h]⟩
  · exact .inr ⟨e, c, h1, by simp [h2]⟩

theorem ext_noop (P : Prog σ V E) (s : State σ V E) (c : Nat) (h0 : (s.fr 0).status ≠ .waitExt) (h1 : (s.fr 1).status ≠ .waitExt)
    (h : ∀ c, c ≠ 0 → c ≠ 1 → (s.fr c).status = .unborn) : step P s (.ext c) = s := by
  have : (s.fr c).status ≠ .waitExt := by
    by_cases e0 : c = 0
    · rw [e0]; exact h0
    · by_cases e1 : c = 1
      · rw [e1]; exact h1
      · simp [h c e0 e1]
  simp [step, this]

theorem cfg_step (P : Prog σ V E) {b c0 : σ} (F : IsForeach P b c0) (vs : List V) (f : Option E) (s : State σ V E)
    (h : Cfg P F vs f s) (op : Op σ) (hop : ∀ b, op ≠ .spawn b) : Cfg P F vs f (step P s op) := by
  cases op with
  | spawn b => exact absurd rfl (hop b)
  | ext c =>
    cases h with
    | start h1 h2 h3 h4 h5 h6 h7 h8 h9 h10 h11 => rw [ext_noop P s c (by simp [h8]) (by simp [h11 1]) (fun c e _ => h11 c e)]; exact .start h1 h2 ‹_› ‹_› ‹_› ‹_› ‹_› ‹_› ‹_› ‹_› ‹_› ‹_› ‹_› ‹_›
    | made h1 h2 h3 h4 h5 h6 h7 h8 => rw [ext_noop P s c (by simp [h6]) (by simp [h8]) h1.oth]; exact .made h1 h2 ‹_› ‹_› ‹_› ‹_› ‹_› ‹_› ‹_› ‹_› ‹_›
    | got b' v vs1 vs2 h1 h2 h3 h4 h5 h6 => rw [ext_noop P s c (by simp [h3]) (by simp [h6]) h1.oth]; exact .got b' v vs1 vs2 h1 h2 ‹_› ‹_› ‹_› ‹_› ‹_› ‹_› ‹_› ‹_› ‹_› ‹_›
    | over h1 h2 h3 h4 => rw [ext_noop P s c (by simp [h3]) (by simp [h4]) h1.oth]; exact .over h1 h2 ‹_› ‹_› ‹_› ‹_› ‹_› ‹_›
    | done h1 h2 h3 h4 h5 =>
      have : (s.fr c).status ≠ .waitExt := by
        by_cases e0 : c = 0
        · subst e0; simp [h3]
        · by_cases e1 : c = 1
          · subst e1; simp [h4]
          · simp [h5 c e0 e1]
      have e : step P s (.ext c) = s := by simp [step, h1, h2, this]
      rw [e]; exact .done h1 h2 h3 h4 h5 ‹_› ‹_› ‹_›
    | prod k b' vs1 vs2 h1 h2 h3 h4 h5 h6 h7 h8 h9 h10 h11 h12 =>
      rcases h2 with ⟨h2, hr⟩ | ⟨h2, hr⟩
      · have e : step P s (.ext c) = s := ext_noop P s c (by simp [h4]) (by simp [hr]) h1.oth
        rw [e]; exact .prod k b' vs1 vs2 h1 (.inl ⟨h2, hr⟩) h3 h4 h5 h6 h7 h8 h9 h10 h11 h12
      · by_cases e1 : c = 1
        · subst e1
          have e : step P s (.ext 1) = ({ s with fr := upd s.fr 1 { s.fr 1 with status := .running, inp := .unit }, stack := [1] } : State σ V E).emit (.resumed 1) := by
            simp [step, h1.ub, h2, hr, h1.f1]
          rw [e]
          refine .prod k b' vs1 vs2 ⟨h1.ub, ?_, ?_, ?_, ?_, ?_, h1.o0, ?_⟩ (.inl ⟨rfl, ?_⟩) ?_ ?_ ?_ ?_ ?_ ?_ ?_ ?_ h11 ?_
          all_goals simp [State.emit, upd_other, h1.g0, h1.f0, h1.g1, h1.f1, h1.e1, h3, h4, h6, h7, h9 hr, reads_append, h10, h12]
          · intro c' h0 h1'; rw [upd_other _ _ h1']; exact h1.oth c' h0 h1'
          · exact h5
          · simp [reads]
        · have : (s.fr c).status ≠ .waitExt := by
            by_cases e0 : c = 0
            · subst e0; simp [h4]
            · simp [h1.oth c e0 e1]
          have e : step P s (.ext c) = s := by simp [step, h1.ub, h2, this]
          rw [e]; exact .prod k b' vs1 vs2 h1 (.inr ⟨h2, hr⟩) h3 h4 h5 h6 h7 h8 h9 h10 h11 h12
    | loop b' c' w vs1 vs2 h1 h2 h3 h4 h5 h6 h7 h8 h9 h10 =>
      rcases h3 with ⟨h3, hr⟩ | ⟨h3, hr, hb⟩
      · have e : step P s (.ext c) = s := ext_noop P s c (by simp [hr.1]) (by simp [h5]) h1.oth
        rw [e]; exact .loop b' c' w vs1 vs2 h1 h2 (.inl ⟨h3, hr⟩) h4 h5 h6 h7 h8 h9 h10
      · by_cases e1 : c = 0
        · subst e1
          have e : step P s (.ext 0) = ({ s with fr := upd s.fr 0 { s.fr 0 with status := .running, inp := .unit }, stack := [0] } : State σ V E).emit (.resumed 0) := by
            simp [step, h1.ub, h3, hr, h1.f0]
          rw [e]
          refine .loop b' c' w vs1 vs2 ⟨h1.ub, ?_, ?_, ?_, ?_, ?_, h1.o0, ?_⟩ ?_ (.inl ⟨rfl, ?_, ?_⟩) ?_ ?_ ?_ h7 ?_ h9 ?_
          all_goals simp [State.emit, upd_other, h1.g0, h1.f0, h1.g1, h1.f1, h1.e1, h2, hb, h4, h5, h6, reads_append, h8, h10]
          · intro c' h0 h1'; rw [upd_other _ _ h0]; exact h1.oth c' h0 h1'
          · simp [reads]
        · have : (s.fr c).status ≠ .waitExt := by
            by_cases e0 : c = 1
            · subst e0; simp [h5]
            · simp [h1.oth c e1 e0]
          have e : step P s (.ext c) = s := by simp [step, h1.ub, h3, this]
          rw [e]; exact .loop b' c' w vs1 vs2 h1 h2 (.inr ⟨h3, hr, hb⟩) h4 h5 h6 h7 h8 h9 h10
  | tick =>
    cases h with
    | start h1 h2 h3 h4 h5 h6 h7 h8 h9 h10 h11 h12 h13 h14 =>
      refine .made ⟨?_, ?_, ?_, ?_, ?_, ?_, ?_, ?_⟩ ?_ ?_ ?_ ?_ ?_ ?_ ?_ ?_ ?_ h14
      all_goals simp [step, h1, h2, h3, h4, h5, h6, h7, h8, h9, h10, F.create, State.act, State.emit, State.reply, upd_other, reads_append, h12, h13]
      · intro c e0 e1; simp [upd_other _ _ e0, upd_other _ _ e1]; exact h11 c e0
      · simp [reads]
    | made h1 h2 h3 h4 h5 h6 h7 h8 h9 h10 h11 =>
      refine .prod .begin b [] vs ⟨?_, ?_, ?_, ?_, ?_, ?_, ?_, ?_⟩ ?_ ?_ ?_ ?_ ?_ ?_ ?_ ?_ ?_ rfl ?_
      all_goals simp [step, h1.ub, h2, h3, h4, h5, h6, h7, h8, h1.o0, h1.f1, h1.g0, h1.f0, h1.g1, h1.e1, F.begin, State.act, State.advance, Frame.wake, State.emit, State.reply, upd_other, reads_append, h9, h10, h11]
      · intro c e0 e1; simp [upd_other _ _ e0, upd_other _ _ e1]; exact h1.oth c e0 e1
      · simp [reads]
    | prod k b' vs1 vs2 h1 h2 h3 h4 h5 h6 h7 h8 h9 h10 h11 h12 =>
      rcases h2 with ⟨h2, hr⟩ | ⟨h2, hr⟩
      · have hE := h8 hr
        cases hE with
        | @work _ _ b'' n _ _ hn hE =>
          refine .prod k b'' vs1 vs2 ⟨?_, ?_, ?_, ?_, ?_, ?_, ?_, ?_⟩ (.inl ⟨?_, ?_⟩) ?_ ?_ ?_ ?_ ?_ ?_ ?_ ?_ h11 ?_
          all_goals simp [step, h1.ub, h2, hr, h3, h4, h6, h7, h1.o0, h1.f1, h1.g0, h1.f0, h1.g1, h1.e1, hn, State.act, State.emit, State.reply, upd_other, reads_append, h10, h12, hE]
          · intro c e0 e1; simp [upd_other _ _ e0, upd_other _ _ e1]; exact h1.oth c e0 e1
          · exact h5
          · simp [reads]
        | @await _ _ b'' _ _ hn hE =>
          refine .prod k b'' vs1 vs2 ⟨?_, ?_, ?_, ?_, ?_, ?_, ?_, ?_⟩ (.inr ⟨?_, ?_⟩) ?_ ?_ ?_ ?_ ?_ ?_ ?_ ?_ h11 ?_
          all_goals simp [step, h1.ub, h2, hr, h3, h4, h6, h7, h1.o0, h1.f1, h1.g0, h1.f0, h1.g1, h1.e1, hn, State.act, State.emit, State.reply, upd_other, reads_append, h10, h12, hE]
          · intro c e0 e1; simp [upd_other _ _ e0, upd_other _ _ e1]; exact h1.oth c e0 e1
          · exact h5
          · simp [reads]
        | @yield _ _ b'' v vs2 _ hn hE =>
          rcases h5 with ⟨rfl, h5⟩ | ⟨rfl, h5⟩ <;>
          · refine .got b'' v vs1 vs2 ⟨?_, ?_, ?_, ?_, ?_, ?_, ?_, ?_⟩ ?_ ?_ (.inl ⟨?_, ?_⟩) ?_ ?_ ?_ ?_ hE ?_ h11 ?_
            all_goals simp [step, h1.ub, h2, hr, h3, h4, h5, h6, h7, h1.o0, h1.f1, h1.g0, h1.f0, h1.g1, h1.e1, hn, State.act, State.transfer, State.awaitResume, State.emit, State.reply, upd_other, reads_append, h10, h12]
            · intro c e0 e1; simp [upd_other _ _ e0, upd_other _ _ e1]; exact h1.oth c e0 e1
            · simp [reads]
        | @ret _ _ b'' hn =>
          rcases h5 with ⟨rfl, h5⟩ | ⟨rfl, h5⟩ <;>
          · refine .over ⟨?_, ?_, ?_, ?_, ?_, ?_, ?_, ?_⟩ ?_ ?_ ?_ (.inl ⟨?_, ?_, ?_, rfl⟩) ?_ (.inl ⟨rfl, 0, ?_⟩) ?_
            all_goals simp [step, h1.ub, h2, hr, h3, h4, h5, h6, h7, h1.o0, h1.f1, h1.g0, h1.f0, h1.g1, h1.e1, hn, State.act, State.transfer, State.awaitResume, State.emit, State.reply, upd_other, reads_append, h10, h12, h11]
            · intro c e0 e1; simp [upd_other _ _ e0, upd_other _ _ e1]; exact h1.oth c e0 e1
            · simp [reads]
        | @throw _ _ b'' e hn =>
          rcases h5 with ⟨rfl, h5⟩ | ⟨rfl, h5⟩
          · refine .over ⟨?_, ?_, ?_, ?_, ?_, ?_, ?_, ?_⟩ ?_ ?_ ?_ (.inr (.inr ⟨e, ?_, ?_, rfl⟩)) ?_ (.inr ⟨e, .begin, rfl, ?_⟩) ?_
            all_goals simp [step, h1.ub, h2, hr, h3, h4, h5, h6, h7, h1.o0, h1.f1, h1.g0, h1.f0, h1.g1, h1.e1, hn, State.act, State.transfer, State.awaitResume, State.emit, State.reply, upd_other, reads_append, h10, h12, h11]
            · intro c e0 e1; simp [upd_other _ _ e0, upd_other _ _ e1]; exact h1.oth c e0 e1
            · simp [reads]
          · refine .over ⟨?_, ?_, ?_, ?_, ?_, ?_, ?_, ?_⟩ ?_ ?_ ?_ (.inr (.inr ⟨e, ?_, ?_, rfl⟩)) ?_ (.inr ⟨e, .inc 0, rfl, ?_⟩) ?_
            all_goals simp [step, h1.ub, h2, hr, h3, h4, h5, h6, h7, h1.o0, h1.f1, h1.g0, h1.f0, h1.g1, h1.e1, hn, State.act, State.transfer, State.awaitResume, State.emit, State.reply, upd_other, reads_append, h10, h12, h11]
            · intro c e0 e1; simp [upd_other _ _ e0, upd_other _ _ e1]; exact h1.oth c e0 e1
            · simp [reads]
      · have e : step P s .tick = s := by simp [step, h1.ub, h2]
        rw [e]; exact .prod k b' vs1 vs2 h1 (.inr ⟨h2, hr⟩) h3 h4 h5 h6 h7 h8 h9 h10 h11 h12
    | got b' v vs1 vs2 h1 h2 h3 h4 h5 h6 h7 h8 h9 h10 h11 h12 =>
      rcases h4 with ⟨h4, h4'⟩ | ⟨h4, h4'⟩
      · refine .got b' v vs1 vs2 ⟨?_, ?_, ?_, ?_, ?_, ?_, ?_, ?_⟩ ?_ ?_ (.inr ⟨?_, ?_⟩) ?_ ?_ ?_ ?_ h9 ?_ h11 ?_
        all_goals simp [step, h1.ub, h2, h3, h4, h4', h5, h6, h7, h8, h1.o0, h1.f1, h1.g0, h1.f0, h1.g1, h1.e1, F.test, State.act, State.emit, State.reply, upd_other, reads_append, h10, h12]
        · intro c e0 e1; simp [upd_other _ _ e0, upd_other _ _ e1]; exact h1.oth c e0 e1
        · simp [reads]
      · refine .loop b' (F.c4 0) v (vs1 ++ [v]) vs2 ⟨?_, ?_, ?_, ?_, ?_, ?_, ?_, ?_⟩ ?_ (.inl ⟨?_, ?_, ?_⟩) ?_ ?_ ?_ h9 ?_ (by simp [h11]) ?_
        all_goals simp [step, h1.ub, h2, h3, h4, h4', h5, h6, h7, h8, h1.o0, h1.f1, h1.g0, h1.f0, h1.g1, h1.e1, F.read, F.enter, State.act, State.emit, State.reply, upd_other, reads_append, h10, h12]
        · intro c e0 e1; simp [upd_other _ _ e0, upd_other _ _ e1]; exact h1.oth c e0 e1
        · simp [reads]
    | loop b' c' w vs1 vs2 h1 h2 h3 h4 h5 h6 h7 h8 h9 h10 =>
      rcases h3 with ⟨h3, hr, hb⟩ | ⟨h3, hr, hb⟩
      · rcases F.step 0 c' _ hb with ⟨c'', n, hn, hb'⟩ | ⟨c'', hn, hb'⟩ | hn
        · refine .loop b' c'' w vs1 vs2 ⟨?_, ?_, ?_, ?_, ?_, ?_, ?_, ?_⟩ ?_ (.inl ⟨?_, ?_, ?_⟩) ?_ ?_ ?_ h7 ?_ h9 ?_
          all_goals simp [step, h1.ub, h2, h3, hr, h4, h5, h6, hn, hb', h1.o0, h1.f1, h1.g0, h1.f0, h1.g1, h1.e1, State.act, State.emit, State.reply, upd_other, reads_append, h8, h10]
          · intro c e0 e1; simp [upd_other _ _ e0, upd_other _ _ e1]; exact h1.oth c e0 e1
          · simp [reads]
        · refine .loop b' c'' w vs1 vs2 ⟨?_, ?_, ?_, ?_, ?_, ?_, ?_, ?_⟩ ?_ (.inr ⟨?_, ?_, ?_⟩) ?_ ?_ ?_ h7 ?_ h9 ?_
          all_goals simp [step, h1.ub, h2, h3, hr, h4, h5, h6, hn, hb', h1.o0, h1.f1, h1.g0, h1.f0, h1.g1, h1.e1, State.act, State.emit, State.reply, upd_other, reads_append, h8, h10]
          · intro c e0 e1; simp [upd_other _ _ e0, upd_other _ _ e1]; exact h1.oth c e0 e1
          · simp [reads]
        · refine .prod (.inc 0) b' vs1 vs2 ⟨?_, ?_, ?_, ?_, ?_, ?_, ?_, ?_⟩ (.inl ⟨?_, ?_⟩) ?_ ?_ ?_ ?_ ?_ ?_ ?_ ?_ h9 ?_
          all_goals simp [step, h1.ub, h2, h3, hr, h4, h5, h6, hn, h7, h1.o0, h1.f1, h1.g0, h1.f0, h1.g1, h1.e1, State.act, State.advance, Frame.wake, State.emit, State.reply, upd_other, reads_append, h8, h10]
          · intro c e0 e1; simp [upd_other _ _ e0, upd_other _ _ e1]; exact h1.oth c e0 e1
          · simp [reads]
      · have e : step P s .tick = s := by simp [step, h1.ub, h3]
        rw [e]; exact .loop b' c' w vs1 vs2 h1 h2 (.inr ⟨h3, hr, hb⟩) h4 h5 h6 h7 h8 h9 h10
    | over h1 h2 h3 h4 h5 h6 h7 h8 =>
      have m := fun m => Ended.mono (m := m) h7
      rcases h5 with ⟨h5, h5', hi, hf⟩ | ⟨h5, h5', hf⟩ | ⟨e, h5, h5', hf⟩
      · refine .over ⟨?_, ?_, ?_, ?_, ?_, ?_, ?_, ?_⟩ ?_ ?_ ?_ (.inr (.inl ⟨?_, ?_, hf⟩)) ?_ ?_ ?_
        all_goals simp [step, h1.ub, h2, h3, h4, h5, h5', hi, h1.o0, h1.f1, h1.g0, h1.f0, h1.g1, h1.e1, F.test, State.act, State.emit, State.reply, upd_other, reads_append, h6, h8]
        · intro c e0 e1; simp [upd_other _ _ e0, upd_other _ _ e1]; exact h1.oth c e0 e1
        · simp [reads]
        · exact m _
      · refine .done ?_ ?_ ?_ ?_ ?_ ?_ ?_ ?_
        all_goals simp [step, h1.ub, h2, h3, h4, h5, h5', h1.o0, h1.f1, h1.g0, h1.f0, h1.g1, h1.e1, F.stop, State.act, State.emit, State.reply, upd_other, reads_append, h6, h8, hf]
        · intro c e0 e1; simp [upd_other _ _ e0, upd_other _ _ e1]; exact h1.oth c e0 e1
        · simp [reads]
        · rw [← hf]; exact m _
      · refine .done ?_ ?_ ?_ ?_ ?_ ?_ ?_ ?_
        all_goals simp [step, h1.ub, h2, h3, h4, h5, h5', h1.o0, h1.f1, h1.g0, h1.f0, h1.g1, h1.e1, F.rethrow, State.act, State.emit, State.reply, upd_other, reads_append, h6, h8, hf]
        · intro c e0 e1; simp [upd_other _ _ e0, upd_other _ _ e1]; exact h1.oth c e0 e1
        · simp [reads]
        · rw [← hf]; exact m _
    | done h1 h2 h3 h4 h5 h6 h7 h8 =>
      have e : step P s .tick = s := by simp [step, h1, h2]
      rw [e]; exact .done h1 h2 h3 h4 h5 h6 h7 h8

theorem cfg_exec (P : Prog σ V E) {b c0 : σ} (F : IsForeach P b c0) (vs : List V) (f : Option E) (hE : Emits P b .start vs f)
    (ops : List (Op σ)) (hops : ∀ op ∈ ops, ∀ b, op ≠ .spawn b) : Cfg P F vs f (exec P (.spawn c0 :: ops)) := by
  induction ops using snocInd with
  | nil =>
    refine .start ?_ ?_ ?_ ?_ ?_ ?_ ?_ ?_ ?_ ?_ ?_ ?_ ?_ hE
    all_goals simp [exec, step, State.emit, reads]
    intro c e0; simp [upd_other _ _ e0]
  | snoc l a ih =>
    rw [← List.cons_append, exec_snoc]
    exact cfg_step P F vs f _ (ih (fun op h => hops op (by simp [h]))) a (hops a (by simp))

end QCoro.AGen
