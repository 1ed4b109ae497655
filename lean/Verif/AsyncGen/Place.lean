import Verif.AsyncGen.Props
/-! # C85 for asynchronous generators: on which thread producer and consumer run -/
set_option linter.unusedSimpArgs false
namespace QCoro.AGen
variable {σ V E : Type}

/-! ### Specification -/

/-- A schedule in which every step is made by some thread. Specification vocabulary, no counterpart in /repo. -/
abbrev Sched (σ : Type) := List (Nat × Op σ)

/-- What the threads do, without the threads. Specification vocabulary, no counterpart in /repo. -/
def opsOf (l : Sched σ) : List (Op σ) := l.map (·.2)

/-- One step, by thread `p.1`: the events of the step happen on that thread. Specification vocabulary, no counterpart in /repo. -/
def tstep (P : Prog σ V E) (x : State σ V E × List (Nat × Ev V E)) (p : Nat × Op σ) : State σ V E × List (Nat × Ev V E) :=
  (step P x.1 p.2, x.2 ++ ((step P x.1 p.2).log.drop x.1.log.length).map (fun e => (p.1, e)))

/-- The history, every event with its thread. Specification vocabulary, no counterpart in /repo. -/
def thist (P : Prog σ V E) (l : Sched σ) : List (Nat × Ev V E) := (l.foldl (tstep P) ({}, [])).2

/-- Another thread takes its turn only when the one before has come back to its event loop. Specification vocabulary, no counterpart in /repo. -/
def TurnByTurn (P : Prog σ V E) (l : Sched σ) : Prop :=
  ∀ a t op b, l = a ++ (t, op) :: b → (exec P (opsOf a)).stack = [] ∨ a.getLast?.map (·.1) = some t

/-- The event makes coroutine `c` execute: it is started, what it awaited completes, it is advanced by its consumer, or its `begin()` or `++` completes.
Specification vocabulary, no counterpart in /repo. -/
def enters (c : Nat) : Ev V E → Bool
  | .spawned d => d == c
  | .resumed d => d == c
  | .adv g _ _ => g == c
  | .got _ k _ => k == c
  | .gotEnd _ k _ => k == c
  | .gotExc _ k _ _ => k == c
  | _ => false

/-- The thread on which `c` was last made to execute. Specification vocabulary, no counterpart in /repo. -/
def place (c : Nat) (l : List (Nat × Ev V E)) : Option Nat := (l.filter (fun p => enters c p.2)).getLast?.map (·.1)

/-- Whose execution brings the event about: the consumer's for `begin()` and `++`, the producer's for their completion. Specification vocabulary, no counterpart in /repo. -/
def performer : Ev V E → Option Nat
  | .adv _ k _ => some k
  | .ran c => some c
  | .suspended c => some c
  | .yielded g _ => some g
  | .returned g => some g
  | .raised g _ => some g
  | .finished c _ => some c
  | .got g _ _ => some g
  | .gotEnd g _ _ => some g
  | .gotExc g _ _ _ => some g
  | .emptyBegin k _ => some k
  | .read k _ _ _ => some k
  | .work c _ => some c
  | _ => none

/-! ### What one step adds -/

def Q (top : Option Nat) (s s' : State σ V E) : Prop :=
  ∃ n, s'.log = s.log ++ n ∧ (∀ f ∈ s'.stack, f ∈ s.stack ∨ ∃ e ∈ n, enters f e = true) ∧ (∀ e ∈ n, ∀ c, performer e = some c → top = some c)

theorem Q.refl (top : Option Nat) (s : State σ V E) : Q top s s := ⟨[], by simp, fun f hf => .inl hf, by simp⟩

theorem Q.trans {top : Option Nat} {s s' s'' : State σ V E} (h1 : Q top s s') (h2 : Q top s' s'') : Q top s s'' := by
  obtain ⟨n, l1, f1, o1⟩ := h1
  obtain ⟨m, l2, f2, o2⟩ := h2
  refine ⟨n ++ m, by rw [l2, l1]; simp, fun f hf => ?_, fun e he => ?_⟩
  · rcases f2 f hf with h | ⟨e, he, h⟩
    · rcases f1 f h with h | ⟨e, he, h⟩
      · exact .inl h
      · exact .inr ⟨e, by simp [he], h⟩
    · exact .inr ⟨e, by simp [he], h⟩
  · rcases List.mem_append.1 he with h | h
    · exact o1 e h
    · exact o2 e h

theorem Q.same {top : Option Nat} {s s' s'' : State σ V E} (h : Q top s s') (hl : s''.log = s'.log) (hs : ∀ f ∈ s''.stack, f ∈ s'.stack) : Q top s s'' := by
  obtain ⟨n, l, f, o⟩ := h
  exact ⟨n, by rw [hl, l], fun g hg => f g (hs g hg), o⟩

/-- One event, no new activation. -/
theorem Q.emit {top : Option Nat} {s s' : State σ V E} {e : Ev V E} (h : Q top s s') (s'' : State σ V E) (hl : s''.log = s'.log ++ [e]) (hs : ∀ f ∈ s''.stack, f ∈ s'.stack)
    (he : ∀ c, performer e = some c → top = some c) : Q top s s'' :=
  h.trans ⟨[e], hl, fun f hf => .inl (hs f hf), fun x hx => by rw [List.mem_singleton.1 hx]; exact he⟩

/-- One event that makes the new activation execute. -/
theorem Q.enter {top : Option Nat} {s s' : State σ V E} {e : Ev V E} (h : Q top s s') (s'' : State σ V E) (c : Nat) (hl : s''.log = s'.log ++ [e])
    (hs : ∀ f ∈ s''.stack, f = c ∨ f ∈ s'.stack) (hc : enters c e = true) (he : ∀ c, performer e = some c → top = some c) : Q top s s'' := by
  refine h.trans ⟨[e], hl, fun f hf => ?_, fun x hx => by rw [List.mem_singleton.1 hx]; exact he⟩
  rcases hs f hf with rfl | hf
  · exact .inr ⟨e, by simp, hc⟩
  · exact .inl hf

theorem Q.fail {top : Option Nat} {s s' : State σ V E} (h : Q top s s') (u : Ub) : Q top s (s'.fail u) := h.same rfl (fun _ hf => hf)

theorem tail_mem {s : State σ V E} {g f : Nat} (hf : f ∈ g :: s.stack.tail) : f = g ∨ f ∈ s.stack := by
  rcases List.mem_cons.1 hf with h | h
  · exact .inl h
  · exact .inr (List.mem_of_mem_tail h)

theorem Q.advance {k : Nat} {s s' : State σ V E} (h : Q (some k) s s') (g : Nat) (c : Call) (bad : Ub) : Q (some k) s (s'.advance k g c bad) := by
  unfold State.advance
  split
  · exact h.fail _
  · split
    · exact h.enter _ g rfl (fun f hf => tail_mem hf) (by simp [enters]) (by simp [performer])
    · exact h.enter _ g rfl (fun f hf => tail_mem hf) (by simp [enters]) (by simp [performer])
    · exact h.fail _
    · exact h.fail _
    · exact h.fail _

theorem awaitResume_shape (s : State σ V E) (g k : Nat) (c : Call) :
    (s.awaitResume g k c).stack = s.stack ∧ ∃ e, (s.awaitResume g k c).log = s.log ++ [e] ∧ enters k e = true ∧ performer e = some g := by
  cases c with
  | inc i =>
    simp only [State.awaitResume]
    split
    · split
      · exact ⟨rfl, _, rfl, by simp [enters], rfl⟩
      · exact ⟨rfl, _, rfl, by simp [enters], rfl⟩
    · exact ⟨rfl, _, rfl, by simp [enters], rfl⟩
  | begin =>
    simp only [State.awaitResume]
    split
    · split
      · exact ⟨rfl, _, rfl, by simp [enters], rfl⟩
      · exact ⟨rfl, _, rfl, by simp [enters], rfl⟩
    · exact ⟨rfl, _, rfl, by simp [enters], rfl⟩

theorem Q.transfer {g : Nat} {s s' : State σ V E} (h : Q (some g) s s') : Q (some g) s (s'.transfer g) := by
  unfold State.transfer
  split
  · exact h.fail _
  · rename_i k _
    split
    · exact h.fail _
    · split
      · rename_i c _
        obtain ⟨h1, e, h2, h3, h4⟩ := awaitResume_shape ({ s' with fr := upd s'.fr k { s'.fr k with status := .running }, stack := k :: s'.stack.tail } : State σ V E) g k c
        exact h.enter _ k h2 (fun f hf => by rw [h1] at hf; exact tail_mem hf) h3 (by rw [h4]; intro c h; exact h)
      · exact h.fail _

theorem Q.act {k : Nat} {s s' : State σ V E} (h : Q (some k) s s') (a : Act σ V E) : Q (some k) s (s'.act k a) := by
  cases a with
  | create b => exact h.emit _ rfl (fun _ hf => hf) (by simp [performer])
  | mkNull => exact h.emit _ rfl (fun _ hf => hf) (by simp [performer])
  | begin o =>
    simp only [State.act]
    split
    · exact h.advance _ _ _
    · exact h.emit _ rfl (fun _ hf => hf) (by simp [performer])
    · exact h.fail _
  | inc i =>
    simp only [State.act]
    split
    · exact h.advance _ _ _
    · exact h.fail _
    · exact h.fail _
  | awaitExt => exact h.emit _ rfl (fun _ hf => List.mem_of_mem_tail hf) (by simp [performer])
  | yield v =>
    simp only [State.act]
    split
    · exact Q.transfer (h.emit _ rfl (fun _ hf => hf) (by simp [performer]))
    · exact h.fail _
  | ret =>
    simp only [State.act]
    split
    · exact Q.transfer (h.emit _ rfl (fun _ hf => hf) (by simp [performer]))
    · exact h.emit _ rfl (fun _ hf => List.mem_of_mem_tail hf) (by simp [performer])
  | throw e =>
    simp only [State.act]
    split
    · exact Q.transfer (h.emit _ rfl (fun _ hf => hf) (by simp [performer]))
    · exact h.emit _ rfl (fun _ hf => List.mem_of_mem_tail hf) (by simp [performer])
  | work n => exact h.emit _ rfl (fun _ hf => hf) (by simp [performer])
  | _ =>
    simp only [State.act]
    repeat' split
    all_goals first
      | exact h.fail _
      | exact h.emit _ rfl (fun _ hf => hf) (by simp [performer])

theorem Q.step (P : Prog σ V E) (s : State σ V E) (op : Op σ) : Q s.stack.head? s (AGen.step P s op) := by
  have h := Q.refl s.stack.head? s
  unfold AGen.step
  split
  · exact h
  · split
    · exact h.enter _ s.nf rfl (fun f hf => List.mem_cons.1 hf) (by simp [enters]) (by simp [performer])
    · rename_i c
      split
      · split
        · exact h.fail _
        · exact h.enter _ c rfl (fun f hf => List.mem_cons.1 hf) (by simp [enters]) (by simp [performer])
      · exact h
    · rename_i k st hs
      rw [hs] at h ⊢
      split
      · refine Q.act ?_ _
        exact h.emit (e := .ran k) _ rfl (fun _ hf => by rw [hs]; exact hf) (by simp [performer])
      · exact h.fail _
    · exact h

/-! ### The invariant -/

theorem place_append (c t : Nat) (l : List (Nat × Ev V E)) (n : List (Ev V E)) :
    place c (l ++ n.map (fun e => (t, e))) = if n.any (enters c) then some t else place c l := by
  induction n using snocInd with
  | nil => simp
  | snoc n e ih =>
    unfold place at *
    rw [List.map_append, ← List.append_assoc, List.filter_append]
    by_cases h : enters c e = true
    · simp [h]
    · have h : enters c e = false := by simpa using h
      simp [h] at ih ⊢
      exact ih

theorem place_keep {c t : Nat} {l : List (Nat × Ev V E)} (n : List (Ev V E)) (h : place c l = some t) : place c (l ++ n.map (fun e => (t, e))) = some t := by
  rw [place_append, h]; split <;> rfl

/-- The thread of the last step. -/
def cur (l : Sched σ) : Option Nat := l.getLast?.map (·.1)

structure TInv (P : Prog σ V E) (l : Sched σ) : Prop where
  st : (l.foldl (tstep P) ({}, [])).1 = exec P (opsOf l)
  log : (thist P l).map (·.2) = (exec P (opsOf l)).log
  ent : ∀ c ∈ (exec P (opsOf l)).stack, place c (thist P l) = cur l
  who : ∀ pre t e post, thist P l = pre ++ (t, e) :: post → ∀ c, performer e = some c → place c pre = some t

theorem exec_opsOf_snoc (P : Prog σ V E) (l : Sched σ) (t : Nat) (op : Op σ) : exec P (opsOf (l ++ [(t, op)])) = step P (exec P (opsOf l)) op := by
  simp [opsOf, exec]

theorem thist_snoc (P : Prog σ V E) (l : Sched σ) (t : Nat) (op : Op σ) (h : (l.foldl (tstep P) ({}, [])).1 = exec P (opsOf l)) (n : List (Ev V E))
    (hn : (step P (exec P (opsOf l)) op).log = (exec P (opsOf l)).log ++ n) : thist P (l ++ [(t, op)]) = thist P l ++ n.map (fun e => (t, e)) := by
  unfold thist
  rw [List.foldl_append]
  simp only [List.foldl_cons, List.foldl_nil]
  generalize List.foldl (tstep P) ({}, []) l = y at h ⊢
  unfold tstep
  rw [h, hn]
  simp

theorem TurnByTurn.prefix {P : Prog σ V E} {l : Sched σ} {x : Nat × Op σ} (h : TurnByTurn P (l ++ [x])) : TurnByTurn P l :=
  fun a t op b e => h a t op (b ++ [x]) (by rw [e]; simp)

theorem tinv (P : Prog σ V E) (l : Sched σ) (h : TurnByTurn P l) : TInv P l := by
  induction l using snocInd with
  | nil =>
    refine ⟨rfl, rfl, ?_, ?_⟩
    · intro c hc; simp [opsOf, exec] at hc
    · intro pre t e post he; simp [thist] at he
  | snoc l x ih =>
    obtain ⟨t, op⟩ := x
    have ht := h l t op [] rfl
    have ih := ih h.prefix
    obtain ⟨n, hl, hf, ho⟩ := Q.step P (exec P (opsOf l)) op
    have hh := thist_snoc P l t op ih.st n hl
    have hcur : cur (l ++ [(t, op)]) = some t := by simp [cur]
    have hold : ∀ f, f ∈ (exec P (opsOf l)).stack → cur l = some t := by
      intro f hf
      rcases ht with h0 | h0
      · rw [h0] at hf; simp at hf
      · exact h0
    have htop : ∀ f, (exec P (opsOf l)).stack.head? = some f → f ∈ (exec P (opsOf l)).stack := fun f hf => List.mem_of_mem_head? hf
    constructor
    · rw [exec_opsOf_snoc, List.foldl_append]
      simp only [List.foldl_cons, List.foldl_nil, tstep]
      rw [ih.st]
    · rw [exec_opsOf_snoc, hh, hl, List.map_append, ih.log]
      simp [Function.comp_def]
    · intro c hc
      rw [exec_opsOf_snoc] at hc
      rw [hcur, hh]
      rcases hf _ hc with h1 | ⟨e, he, hen⟩
      · exact place_keep _ (by rw [ih.ent c h1, hold _ h1])
      · rw [place_append, if_pos (List.any_eq_true.2 ⟨e, he, hen⟩)]
    · intro pre t' e post he c hc
      rw [hh] at he
      rcases List.append_eq_append_iff.1 he with ⟨as, e1, e2⟩ | ⟨bs, e1, e2⟩
      · obtain ⟨n1, n2, hn, ha, hb⟩ := List.map_eq_append_iff.1 e2
        obtain ⟨e', n3, hn2, he', hb'⟩ := List.map_eq_cons_iff.1 hb
        cases he'
        subst ha; subst hn2; subst e1
        have h1 := htop _ (ho e (by rw [hn]; simp) c hc)
        exact place_keep _ (by rw [ih.ent c h1, hold _ h1])
      · cases bs with
        | nil =>
          simp at e1 e2
          subst e1
          cases n with
          | nil => simp at e2
          | cons e0 n =>
            simp at e2
            obtain ⟨⟨rfl, rfl⟩, _⟩ := e2
            have h1 := htop _ (ho e (by simp) c hc)
            rw [ih.ent c h1, hold _ h1]
        | cons b bs =>
          simp at e2
          obtain ⟨rfl, _⟩ := e2
          exact ih.who pre t' e bs e1 c hc

/-! ### The theorems -/

/-- The history with its threads is the history. -/
theorem C85_gen_same_history (P : Prog σ V E) (l : Sched σ) (h : TurnByTurn P l) : (thist P l).map (·.2) = (exec P (opsOf l)).log := (tinv P l h).log

/-- **A producer or consumer stays on its thread between its suspensions.** -/
theorem C85_gen_stays (P : Prog σ V E) (l : Sched σ) (h : TurnByTurn P l) (pre : List (Nat × Ev V E)) (t : Nat) (e : Ev V E) (post : List (Nat × Ev V E))
    (he : thist P l = pre ++ (t, e) :: post) (c : Nat) (hc : performer e = some c) : place c pre = some t := (tinv P l h).who pre t e post he c hc

/-- **The body of an asynchronous generator begins, and continues after every `co_yield`, on the thread of the consumer** that called `begin()` or `++`. -/
theorem C85_gen_producer (P : Prog σ V E) (l : Sched σ) (h : TurnByTurn P l) (pre : List (Nat × Ev V E)) (t g k : Nat) (c : Call) (post : List (Nat × Ev V E))
    (he : thist P l = pre ++ (t, .adv g k c) :: post) : place k pre = some t ∧ place g (pre ++ [(t, .adv g k c)]) = some t :=
  ⟨(tinv P l h).who pre t _ post he k rfl, by simp [place, enters]⟩

/-- **The consumer continues, with a value, at the end or with an exception, on the thread of the producer** – on which that had last continued from a `co_await` of its own, or
been called. -/
theorem C85_gen_consumer (P : Prog σ V E) (l : Sched σ) (h : TurnByTurn P l) (pre : List (Nat × Ev V E)) (t g k : Nat) (e : Ev V E) (post : List (Nat × Ev V E))
    (he : thist P l = pre ++ (t, e) :: post) (hk : (∃ i, e = .got g k i) ∨ (∃ i, e = .gotEnd g k i) ∨ ∃ c x, e = .gotExc g k c x) :
    place g pre = some t ∧ place k (pre ++ [(t, e)]) = some t := by
  rcases hk with ⟨i, rfl⟩ | ⟨i, rfl⟩ | ⟨c, x, rfl⟩
  all_goals exact ⟨(tinv P l h).who pre t _ post he g rfl, by simp [place, enters]⟩

theorem place_some {c t : Nat} {l : List (Nat × Ev V E)} (h : place c l = some t) : ∃ p e q, l = p ++ (t, e) :: q ∧ enters c e = true := by
  unfold place at h
  obtain ⟨x, hx, rfl⟩ := Option.map_eq_some_iff.1 h
  have := List.mem_of_getLast? hx
  obtain ⟨h1, h2⟩ := List.mem_filter.1 this
  obtain ⟨p, q, rfl⟩ := List.append_of_mem h1
  exact ⟨p, x.2, q, rfl, h2⟩

theorem cw_adv {g k : Nat} {l : List (Ev V E)} : (Spec.after l).cw k = some g → ∃ c, .adv g k c ∈ l := by
  induction l using snocInd with
  | nil => intro h; simp [Spec.after] at h
  | snoc l e ih =>
    intro h
    rw [Spec.after_snoc] at h
    have hkeep : (Spec.after l).cw k = some g → ∃ c, .adv g k c ∈ l ++ [e] := by
      intro h; obtain ⟨c, h⟩ := ih h; exact ⟨c, by simp [h]⟩
    have hdrop : ∀ k', upd (Spec.after l).cw k' none k = some g → ∃ c, .adv g k c ∈ l ++ [e] := by
      intro k' h
      by_cases hk : k = k'
      · subst hk; rw [upd_same] at h; cases h
      · rw [upd_other _ _ hk] at h; exact hkeep h
    cases e with
    | adv g' k' c =>
      simp only [Spec.next] at h
      by_cases hk : k = k'
      · subst hk; rw [upd_same] at h; cases h; exact ⟨c, by simp⟩
      · rw [upd_other _ _ hk] at h; exact hkeep h
    | got g' k' i => exact hdrop k' h
    | gotEnd g' k' i => exact hdrop k' h
    | gotExc g' k' c x => exact hdrop k' h
    | dropped o g' => cases g' <;> exact hkeep h
    | _ => exact hkeep h

/-- **Everybody stays at home**: if plain coroutines are at home where they are started, generators are consumed only by coroutines with the same home thread, and what
anybody awaits besides generators completes on the thread on which it was suspended, then producers and consumers do everything on their home threads. -/
theorem C85_gen_home (P : Prog σ V E) (l : Sched σ) (h : TurnByTurn P l) (home : Nat → Nat)
    (hs : ∀ t c, (t, .spawned c) ∈ thist P l → home c = t)
    (hw : ∀ t g k c, (t, .adv g k c) ∈ thist P l → home g = home k)
    (hx : ∀ pre t c post, thist P l = pre ++ (t, .resumed c) :: post → place c pre = some t)
    (t : Nat) (e : Ev V E) (c : Nat) (he : (t, e) ∈ thist P l) (hc : enters c e = true ∨ performer e = some c) : t = home c := by
  have key : ∀ n pre t e post c, pre.length = n → thist P l = pre ++ (t, e) :: post → enters c e = true ∨ performer e = some c → t = home c := by
    intro n
    induction n using Nat.strongRecOn with
    | ind n ih =>
      intro pre t e post c hn he hc
      have hp : ∀ d, place d pre = some t → t = home d := by
        intro d h1
        obtain ⟨p, e', q, h2, h3⟩ := place_some h1
        exact ih p.length (by rw [← hn, h2]; simp) p t e' (q ++ (t, e) :: post) d rfl (by rw [he, h2]; simp) (.inl h3)
      have hwho := (tinv P l h).who pre t e post he
      have hm : (t, e) ∈ thist P l := by rw [he]; simp
      have hg : ∀ g k, (Spec.after (pre.map (·.2))).cw k = some g → home g = home k := by
        intro g k h1
        obtain ⟨a, h2⟩ := cw_adv h1
        obtain ⟨⟨t', e'⟩, h3, h4⟩ := List.mem_map.1 h2
        simp at h4; subst h4
        exact hw t' g k a (by rw [he]; simp [h3])
      have hlg : (exec P (opsOf l)).log = pre.map (·.2) ++ e :: post.map (·.2) := by rw [← (tinv P l h).log, he]; simp
      have hok := (good_exec P (opsOf l)).legal _ _ _ hlg
      rcases hc with hc | hc
      · cases e with
        | spawned d => simp [enters] at hc; subst hc; exact (hs t d hm).symm
        | resumed d => simp [enters] at hc; subst hc; exact hp d (hx pre t d post he)
        | adv g k a => simp [enters] at hc; subst hc; rw [hw t g k a hm]; exact hp k (hwho k rfl)
        | got g k i => simp [enters] at hc; subst hc; rw [← hg g k hok.2.1]; exact hp g (hwho g rfl)
        | gotEnd g k i => simp [enters] at hc; subst hc; rw [← hg g k hok.2.1]; exact hp g (hwho g rfl)
        | gotExc g k a x => simp [enters] at hc; subst hc; rw [← hg g k hok.2.1]; exact hp g (hwho g rfl)
        | _ => simp [enters] at hc
      · exact hp c (hwho c hc)
  obtain ⟨p, q, hp⟩ := List.append_of_mem he
  exact key p.length p t e q c rfl hp hc

/-! ### Examples -/

theorem turnByTurn_of {P : Prog σ V E} {l : Sched σ}
    (h : ∀ i < l.length, (exec P (opsOf (l.take i))).stack = [] ∨ (l.take i).getLast?.map (·.1) = (l[i]?).map (·.1)) : TurnByTurn P l := by
  intro a t op b e
  have := h a.length (by rw [e]; simp)
  subst e
  simpa using this

/-- The loop of `demo`: started on thread 1; the generator's first `co_await` completes on thread 2, what the loop's body awaits on thread 1 and then on thread 2. -/
def travels : Sched DS :=
  [(1, .spawn (.p 200)), (1, .tick), (1, .tick), (1, .tick), (2, .ext 1), (2, .tick), (2, .tick), (2, .tick), (2, .tick), (1, .ext 0), (1, .tick), (1, .tick), (1, .tick),
   (1, .tick), (1, .tick)]

/-- Found: a consumer whose generator continues on another thread finds itself there when it gets its value (`qcoroasyncgenerator.h:84-86` transfers to it), and the generator finds
itself on whatever thread its consumer then calls `++` (`:117-120`). -/
theorem C85_gen_found_moves : TurnByTurn demo travels ∧ (exec demo (opsOf travels)).ub = none ∧
    (thist demo travels).filter (fun p => enters 0 p.2 || enters 1 p.2) =
      [(1, .spawned 0), (1, .adv 1 0 .begin), (2, .resumed 1), (2, .got 1 0 0), (1, .resumed 0), (1, .adv 1 0 (.inc 0)), (1, .got 1 0 0)] := by
  refine ⟨turnByTurn_of (by decide), by decide, by decide⟩

example : (2, .read 0 1 0 10) ∈ thist demo travels ∧ (1, .yielded 1 20) ∈ thist demo travels ∧ (1, .read 0 1 0 20) ∈ thist demo travels := by decide

/-- The same at home: everything on thread 1, another such pair on thread 2. -/
def settled : Sched DS :=
  [(1, .spawn (.p 200)), (1, .tick), (1, .tick), (1, .tick), (2, .spawn (.p 200)), (2, .tick), (2, .tick), (2, .tick), (1, .ext 1), (1, .tick), (1, .tick), (1, .tick), (1, .tick),
   (2, .ext 3), (2, .tick), (2, .tick), (2, .tick), (2, .tick), (1, .ext 0), (1, .tick), (1, .tick)]

example : TurnByTurn demo settled ∧ (exec demo (opsOf settled)).ub = none ∧
    let home := fun c => if c < 2 then 1 else 2
    (∀ p ∈ thist demo settled, (match p.2 with | .spawned c => home c == p.1 | .adv g k _ => home g == home k | _ => true) = true) ∧
    (∀ i < (thist demo settled).length, (match (thist demo settled)[i]? with | some (t, .resumed c) => place c ((thist demo settled).take i) == some t | _ => true) = true) ∧
    (1, .read 0 1 0 10) ∈ thist demo settled ∧ (2, .read 2 3 1 10) ∈ thist demo settled := by
  refine ⟨turnByTurn_of (by decide), by decide, by decide, by decide, by decide, by decide⟩

end QCoro.AGen
