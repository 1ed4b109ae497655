import Verif.WebSocket.Gen
/- Property C53: textMessages(), binaryMessages(), textFrames(), binaryFrames(). -/
set_option linter.unusedSimpArgs false
namespace QCoro.WebSocketGen
open QCoro.Listener (Ev)
variable {β : Type}

/-! ### Reading the listener's log through the generator's view -/

/-- A valid history of the inner listener. -/
structure OK (t : Int) (l : List (Ev (Option β))) : Prop where
  legal : Legal Listener.Spec.next Listener.Spec.ok { timeout := t } l
  fine : Fine l

theorem ok_run (t : Int) (ops : List (Op β)) : OK t (run t ops).L.log := by
  obtain ⟨lops, hs, _⟩ := sim t ops
  have hi := (Listener.inv_exec t lops).legal
  rw [Listener.timeout_const] at hi
  rw [← hs] at hi
  exact ⟨hi, (winv t ops).fine⟩

theorem OK.prefix {t : Int} {p q : List (Ev (Option β))} (h : OK t (p ++ q)) : OK t p := by
  refine ⟨h.legal.prefix, ⟨?_, ?_, ?_⟩⟩
  · intro a e b hab he
    rcases h.fine.ends a e (b ++ q) (by simp [hab]) he with hq | ⟨q', hq⟩
    · left; exact (List.append_eq_nil_iff.1 hq).1
    · cases b with
      | nil => exact .inl rfl
      | cons x b => simp at hq; exact .inr ⟨b, by rw [hq.1]⟩
  · intro a x n b hab; exact h.fine.watch a x n (b ++ q) (by simp [hab])
  · intro n hn; exact h.fine.nodest n (by simp [hn])

/-- The first question to the listener. -/
theorem first_next {l : List (Ev (Option β))} (h : ∃ m, .next m ∈ l) : ∃ p m q, l = p ++ .next m :: q ∧ ∀ k, .next k ∉ p := by
  induction l with
  | nil => obtain ⟨m, hm⟩ := h; cases hm
  | cons e l ih =>
    by_cases he : ∃ k, e = .next k
    · obtain ⟨k, rfl⟩ := he; exact ⟨[], k, l, rfl, by simp⟩
    · obtain ⟨m, hm⟩ := h
      have hm : .next m ∈ l := by
        rcases List.mem_cons.1 hm with hm | hm
        · exact absurd ⟨m, hm.symm⟩ he
        · exact hm
      obtain ⟨p, m, q, h1, h2⟩ := ih ⟨m, hm⟩
      refine ⟨e :: p, m, q, by rw [h1]; rfl, ?_⟩
      intro k hk
      rcases List.mem_cons.1 hk with hk | hk
      · exact he ⟨k, hk.symm⟩
      · exact h2 k hk

theorem isNext_view (e : Ev (Option β)) : isNext (view e) = true ↔ ∃ k, e = .next k := by
  cases e with
  | emitted a n => cases a <;> simp [view, isNext]
  | got r n => cases r with
    | none => simp [view, isNext]
    | some a => cases a <;> simp [view, isNext]
  | _ => simp [view, isNext]

theorem isAnswer_view (e : Ev (Option β)) : isAnswer (view e) = Listener.isGot e := by
  cases e with
  | emitted a n => cases a <;> rfl
  | got r n => cases r with
    | none => rfl
    | some a => cases a <;> rfl
  | _ => rfl

theorem dropWhile_all {γ : Type} (f : γ → Bool) (p q : List γ) (h : ∀ x ∈ p, f x = true) : (p ++ q).dropWhile f = q.dropWhile f := by
  induction p with
  | nil => rfl
  | cons x p ih => simp [h x (by simp), ih (fun y hy => h y (by simp [hy]))]

theorem filterMap_feed (l : List (Ev (Option β))) :
    (l.map view).filterMap report = Listener.emissions l := by
  induction l with
  | nil => rfl
  | cons e l ih =>
    simp only [Listener.emissions] at ih ⊢
    simp only [List.map_cons, List.filterMap_cons, ih]
    cases e with
    | emitted a n => cases a <;> simp [view, report]
    | got r n => cases r with
      | none => simp [view, report]
      | some a => cases a <;> simp [view, report]
    | _ => simp [view, report]

theorem feed_none (early : List β) (l : List (Ev (Option β))) (h : ∀ m, .next m ∉ l) : feed (early.map .msg ++ l.map view) = [] := by
  unfold feed
  rw [dropWhile_all _ _ _ (by simp [isNext])]
  have := dropWhile_all (fun e : WEv β => !isNext e) (l.map view) [] (by
    intro x hx
    obtain ⟨e, he, rfl⟩ := List.mem_map.1 hx
    cases hn : isNext (view e) with
    | false => rfl
    | true => obtain ⟨k, rfl⟩ := (isNext_view e).1 hn; exact absurd he (h k))
  rw [List.append_nil] at this
  rw [this]; rfl

/-- What the socket reported since `begin()` is what the listener saw. -/
theorem feed_eq {t : Int} (early : List β) {l : List (Ev (Option β))} (h : OK t l) (hn : ∃ m, .next m ∈ l) :
    feed (early.map .msg ++ l.map view) = Listener.emissions l := by
  obtain ⟨p, m, q, rfl, hp⟩ := first_next hn
  have hnd : .dropped ∉ p := by
    intro hd
    obtain ⟨a, b, rfl⟩ := List.append_of_mem hd
    have := (after_dropped (q := b ++ .next m :: q) (by simpa using h.legal) (.next m) (by simp)).2 m
    exact this rfl
  have he : Listener.emissions p = [] := by
    unfold Listener.emissions
    rw [List.filterMap_eq_nil_iff]
    intro e hep
    cases e with
    | emitted a n =>
      exfalso
      obtain ⟨a', b, rfl⟩ := List.append_of_mem hep
      rcases h.fine.watch a' a n (b ++ .next m :: q) (by simp) with ⟨k, hk⟩ | hd
      · exact hp k (by simp [hk])
      · exact hnd (by simp [hd])
    | _ => rfl
  unfold feed
  rw [dropWhile_all _ _ _ (by simp [isNext]), List.map_append, dropWhile_all _ _ _ (by
    intro x hx
    obtain ⟨e, he, rfl⟩ := List.mem_map.1 hx
    cases hn : isNext (view e) with
    | false => rfl
    | true => obtain ⟨k, rfl⟩ := (isNext_view e).1 hn; exact absurd he (hp k))]
  rw [List.map_cons, show view (Ev.next m : Ev (Option β)) = .next m from rfl, List.dropWhile_cons]
  simp only [isNext, Bool.not_true, Bool.false_eq_true, if_false]
  have e2 := filterMap_feed (Ev.next m :: q)
  rw [List.map_cons, show view (Ev.next m : Ev (Option β)) = .next m from rfl] at e2
  rw [e2]
  simp only [Listener.emissions, List.filterMap_append] at he ⊢
  rw [he]; rfl

theorem obtained_eq (early : List β) (l : List (Ev (Option β))) : obtained (early.map .msg ++ l.map view) = (Listener.gots l).filterMap id := by
  unfold obtained Listener.gots
  rw [List.filterMap_append, List.filterMap_map, List.filterMap_map, List.filterMap_filterMap]
  have : List.filterMap (message ∘ WEv.msg) early = [] := by
    rw [List.filterMap_eq_nil_iff]; intro a _; rfl
  rw [this, List.nil_append]
  congr 1
  funext e
  cases e with
  | emitted a n => cases a <;> rfl
  | got r n => cases r with
    | none => rfl
    | some a => cases a <;> rfl
  | _ => rfl

theorem gots_append (p q : List (Ev (Option β))) : Listener.gots (p ++ q) = Listener.gots p ++ Listener.gots q := by simp [Listener.gots]

theorem all_some {l : List (Option β)} (h : none ∉ l) : l = (l.filterMap id).map some := by
  induction l with
  | nil => rfl
  | cons a l ih =>
    simp at h
    cases a with
    | none => exact absurd rfl h.1
    | some a => simp; exact ih h.2

/-- The listener's answers are the messages obtained, then possibly one disconnect. -/
theorem gots_form {t : Int} (early : List β) {l : List (Ev (Option β))} (h : OK t l) :
    (Listener.gots l = (obtained (early.map .msg ++ l.map view)).map some ∧ ∀ n, .got (some none) n ∉ l) ∨
    (Listener.gots l = (obtained (early.map .msg ++ l.map view)).map some ++ [none] ∧ ∃ n, .got (some none) n ∈ l) := by
  rw [obtained_eq]
  by_cases hx : ∃ n, .got (some none) n ∈ l
  · right
    refine ⟨?_, hx⟩
    obtain ⟨n, hn⟩ := hx
    obtain ⟨p, q, rfl⟩ := List.append_of_mem hn
    have hq0 : ∀ e ∈ q, Listener.isGot e = false := by
      rcases h.fine.ends p _ q rfl rfl with hq | ⟨q', hq⟩
      · subst hq; simp
      · subst hq
        intro e he
        rcases List.mem_cons.1 he with rfl | he
        · rfl
        · exact (after_dropped (p := p ++ [.got (some none) n]) (by simpa using h.legal) e he).1
    have hq1 : Listener.gots q = [] := by
      unfold Listener.gots
      rw [List.filterMap_eq_nil_iff]
      intro e he
      have := hq0 e he
      cases e <;> first | rfl | (simp [Listener.isGot] at this)
    have hp : none ∉ Listener.gots p := by
      intro hm
      unfold Listener.gots at hm
      obtain ⟨e, he, hx⟩ := List.mem_filterMap.1 hm
      obtain ⟨a, b, rfl⟩ := List.append_of_mem he
      have hend : isEnd e = true := by
        cases e with
        | got r k => simp at hx; subst hx; rfl
        | _ => simp at hx
      rcases h.fine.ends a e (b ++ .got (some none) n :: q) (by simp) hend with hb | ⟨b', hb⟩
      · simp at hb
      · cases b with
        | nil => simp at hb
        | cons y b2 =>
          simp at hb
          obtain ⟨rfl, _⟩ := hb
          have := (after_dropped (p := a ++ [e]) (q := b2 ++ .got (some none) n :: q) (by simpa using h.legal) (.got (some none) n) (by simp)).1
          cases this
    have e : Listener.gots (p ++ .got (some none) n :: q) = Listener.gots p ++ [none] := by
      rw [show p ++ Ev.got (some none) n :: q = p ++ [Ev.got (some none) n] ++ q by simp, gots_append, gots_append, hq1]
      simp [Listener.gots]
    rw [e, List.filterMap_append]
    conv => lhs; rw [all_some hp]
    simp
  · left
    refine ⟨?_, fun n hn => hx ⟨n, hn⟩⟩
    apply all_some
    intro hm
    unfold Listener.gots at hm
    obtain ⟨e, he, hv⟩ := List.mem_filterMap.1 hm
    cases e with
    | got r k => simp at hv; subst hv; exact hx ⟨k, he⟩
    | _ => simp at hv

/-- Without a question there are no answers. -/
theorem no_next {t : Int} {l : List (Ev (Option β))} (h : OK t l) (hn : ∀ m, .next m ∉ l) : ∀ e ∈ l, Listener.isGot e = false := by
  have key : ∀ l : List (Ev (Option β)), (∀ m, .next m ∉ l) → Legal Listener.Spec.next Listener.Spec.ok { timeout := t } l →
      (Listener.Spec.after t l).wait = none ∧ ∀ e ∈ l, Listener.isGot e = false := by
    intro l
    induction l using snocInd with
    | nil => intro _ _; exact ⟨rfl, by simp⟩
    | snoc l e ih =>
      intro hn hl
      obtain ⟨i1, i2⟩ := ih (fun m hm => hn m (by simp [hm])) hl.prefix
      have hok : Listener.Spec.ok (Listener.Spec.after t l) e := hl l e [] rfl
      rw [Listener.Spec.after_snoc]
      have he : Listener.isGot e = false := by
        cases e with
        | got r n =>
          exfalso
          cases r with
          | none => obtain ⟨_, _, h1, _⟩ := hok; rw [i1] at h1; cases h1
          | some a => have := hok.1; rw [i1] at this; cases this
        | _ => rfl
      refine ⟨?_, by intro x hx; simp at hx; rcases hx with hx | rfl; exact i2 x hx; exact he⟩
      cases e with
      | got r n => cases he
      | next n => exact absurd (by simp) (hn n)
      | _ => exact i1
  exact (key l hn h.legal).2

/-! ### C53 -/

/-- The consumer obtains exactly the messages the socket reported since `begin()`, in order, each once, none skipped, and none
that came after a disconnect. -/
theorem C53_in_order (t : Int) (ops : List (Op β)) : (obtained (run t ops).log).map some <+: feed (run t ops).log := by
  have h := ok_run t ops
  obtain ⟨lops, hs, _⟩ := sim t ops
  have hin := Listener.C33_in_order t lops
  rw [← hs] at hin
  unfold State.log
  generalize run t ops = s at *
  by_cases hn : ∃ m, .next m ∈ s.L.log
  · rw [feed_eq s.early h hn]
    refine List.IsPrefix.trans ?_ hin
    rcases gots_form s.early h with ⟨e, _⟩ | ⟨e, _⟩ <;> rw [e]
    · exact List.prefix_refl _
    · exact List.prefix_append _ _
  · have h0 := no_next h (fun m hm => hn ⟨m, hm⟩)
    have : Listener.gots s.L.log = [] := by
      unfold Listener.gots
      rw [List.filterMap_eq_nil_iff]
      intro e he
      have := h0 e he
      cases e <;> first | rfl | (simp [Listener.isGot] at this)
    rw [obtained_eq, this]; exact List.nil_prefix

theorem asked_L (s : State β) (t0 : Nat) (h : Asked s.log t0) : Listener.Asked s.L.log t0 := by
  obtain ⟨p, q, e, hq⟩ := h
  unfold State.log at e
  -- the question is one of the listener's events
  have key : ∀ (early : List β) (p : List (WEv β)), early.map .msg ++ s.L.log.map view = p ++ .next t0 :: q →
      ∃ p', s.L.log.map view = p' ++ .next t0 :: q := by
    intro early
    induction early with
    | nil => intro p e; exact ⟨p, by simpa using e⟩
    | cons a early ih =>
      intro p e
      cases p with
      | nil => simp at e
      | cons x p => simp at e; exact ih p e.2
  obtain ⟨p', e⟩ := key s.early p e
  obtain ⟨l1, l2, e1, e2, e3⟩ := List.map_eq_append_iff.1 e
  obtain ⟨x, l3, e4, e5, e6⟩ := List.map_eq_cons_iff.1 e3
  subst e4
  have hx : x = .next t0 := by
    obtain ⟨k, rfl⟩ := (isNext_view x).1 (by rw [e5]; rfl)
    simp [view] at e5; rw [e5]
  subst hx
  refine ⟨l1, l3, e1, ?_⟩
  intro y hy
  rw [← isAnswer_view]; exact hq (view y) (by rw [← e6]; exact List.mem_map_of_mem hy)

theorem asked_next {s : State β} {t0 : Nat} (h : Asked s.log t0) : ∃ m, .next m ∈ s.L.log := by
  obtain ⟨p, q, e, _⟩ := asked_L s t0 h
  exact ⟨t0, by rw [e]; simp⟩

/-- A waiting consumer has not been told a disconnect. -/
theorem no_disc_yet {t : Int} (early : List β) {l : List (Ev (Option β))} (h : OK t l) (hlast : endsNow l = false)
    (hg : (Listener.Spec.after t l).ended = false) : Listener.gots l = (obtained (early.map .msg ++ l.map view)).map some := by
  rcases gots_form early h with ⟨e, _⟩ | ⟨e, n, hn⟩
  · exact e
  · exfalso
    obtain ⟨p, q, rfl⟩ := List.append_of_mem hn
    rcases h.fine.ends p _ q rfl rfl with hq | ⟨q', rfl⟩
    · subst hq; rw [endsNow_snoc] at hlast; cases hlast
    · have := ended_stays (t := t) (p ++ [.got (some none) n] ++ [.dropped]) q' (by rw [Listener.Spec.after_snoc]; rfl)
      simp at this
      rw [this] at hg; cases hg

theorem asked_ended {s : State β} (t : Int) (hl : Legal Listener.Spec.next Listener.Spec.ok { timeout := t } s.L.log) {t0 : Nat} (h : Asked s.log t0) :
    (Listener.Spec.after t s.L.log).ended = false := by
  obtain ⟨p, q, e, hq⟩ := asked_L s t0 h
  rw [e] at hl ⊢
  have hok : Listener.Spec.ok (Listener.Spec.after t p) (.next t0) := hl p _ q rfl
  have key : ∀ q : List (Ev (Option β)), (∀ x ∈ q, Listener.isGot x = false) → Legal Listener.Spec.next Listener.Spec.ok { timeout := t } (p ++ .next t0 :: q) →
      (Listener.Spec.after t (p ++ .next t0 :: q)).ended = false ∧ (Listener.Spec.after t (p ++ .next t0 :: q)).wait.isSome = true := by
    intro q
    induction q using snocInd with
    | nil => intro _ _; rw [Listener.Spec.after_snoc]; exact ⟨hok.2, rfl⟩
    | snoc q e ih =>
      intro hq hl
      rw [show p ++ Ev.next t0 :: (q ++ [e]) = (p ++ Ev.next t0 :: q) ++ [e] by simp] at hl ⊢
      obtain ⟨i1, i2⟩ := ih (fun x hx => hq x (by simp [hx])) hl.prefix
      have hok : Listener.Spec.ok (Listener.Spec.after t (p ++ .next t0 :: q)) e := hl _ e [] rfl
      have hne := hq e (by simp)
      rw [Listener.Spec.after_snoc]
      cases e with
      | got r n => cases hne
      | dropped => have : (Listener.Spec.after t (p ++ Ev.next t0 :: q)).wait = none := hok; rw [this] at i2; cases i2
      | emitted a n => exact ⟨i1, i2⟩
      | destroyed n => exact ⟨i1, i2⟩
      | next n => exact ⟨i1, rfl⟩
  exact (key q hq hl).1

theorem log_fin {s : State β} {L' : Listener.State (Option β)} (hG : G L') (x : Option β) (n : Nat) (hL : L'.log = s.L.log ++ [.got (some x) n]) (hu : L'.ub = none) :
    ({ s with L := fin L' } : State β).log = s.log ++ answer n x ∧ (fin L').ub = none := by
  unfold State.log
  cases x with
  | some a =>
    have he : endsNow L'.log = false := by rw [hL, endsNow_snoc]; rfl
    have hf : fin L' = L' := by unfold fin; rw [he]; rfl
    dsimp only
    rw [hf, hL]; simp [view, hu, answer]
  | none =>
    have he : endsNow L'.log = true := by rw [hL, endsNow_snoc]; rfl
    rcases fin_cases hG with ⟨h1, _⟩ | ⟨_, h2, _, h4, _⟩
    · rw [he] at h1; cases h1
    · dsimp only
      rw [h2, hL]; simp [view, h4, answer]

/-- A waiting consumer gets what the socket reported next — the message, or the end if that was a disconnect — as soon as the event
loop delivers one event; at the end the generator's resources are released before the consumer continues. -/
theorem C53_answer (t : Int) (ops : List (Op β)) (hu : (run t ops).L.ub = none) (t0 : Nat) (ha : Asked (run t ops).log t0)
    (x : Option β) (hx : (feed (run t ops).log)[(obtained (run t ops).log).length]? = some x) :
    (run t (ops ++ [.deliver])).log = (run t ops).log ++ answer (run t ops).L.now x ∧
    (run t (ops ++ [.deliver])).L.ub = none := by
  have h := ok_run t ops
  have hw := winv t ops
  obtain ⟨lops, hs, _⟩ := sim t ops
  rw [run_snoc]
  generalize run t ops = s at *
  have hL := asked_L s t0 ha
  have hg := no_disc_yet s.early h hw.last (asked_ended t h.legal ha)
  rw [show feed s.log = Listener.emissions s.L.log from feed_eq s.early h (asked_next ha)] at hx
  have hlen : (Listener.gots s.L.log).length = (obtained s.log).length := by rw [hg]; simp [State.log]
  rw [← hlen] at hx
  rw [hs] at hx hL hu
  obtain ⟨k1, k2⟩ := Listener.C33_waiting t lops hu t0 hL x hx
  rw [Listener.exec_snoc, ← hs] at k1 k2
  exact log_fin (g_step hw.last hw.fine .deliver (by simp) (by simp)) x s.L.now k1 k2

/-- A wait that has lasted for the timeout ends the generator when the event loop next looks at timers. -/
theorem C53_times_out (t : Int) (ht : 0 ≤ t) (ops : List (Op β)) (hu : (run t ops).L.ub = none) (t0 : Nat) (ha : Asked (run t ops).log t0)
    (hnow : (t0 : Int) + t ≤ (run t ops).L.now) :
    (run t (ops ++ [.fire])).log = (run t ops).log ++ [.ended (run t ops).L.now, .released] ∧ (run t (ops ++ [.fire])).L.ub = none := by
  have h := ok_run t ops
  have hw := winv t ops
  obtain ⟨lops, hs, _⟩ := sim t ops
  rw [run_snoc]
  generalize run t ops = s at *
  have hL := asked_L s t0 ha
  have hd := h.fine.nodest
  rw [hs] at hL hu hd hnow
  obtain ⟨k1, k2⟩ := Listener.C34_times_out t ht lops hu t0 hL hd hnow
  rw [Listener.exec_snoc, ← hs] at k1 k2
  have hG := g_step hw.last hw.fine .fire (by simp) (by simp)
  have he : endsNow (Listener.step s.L .fire).log = true := by rw [k1, endsNow_snoc]; rfl
  rcases fin_cases hG with ⟨h1, _⟩ | ⟨_, h2, _, h4, _⟩
  · rw [he] at h1; cases h1
  · refine ⟨?_, h4⟩
    simp only [State.log, step]
    rw [h2, k1]; simp [view]

/-- The end is told only to a consumer that asked, either because the report it would be given next is a disconnect, or because the
(non-negative) timeout has passed since it asked; it is followed by the release and nothing is asked or answered afterwards. -/
theorem C53_end (t : Int) (ops : List (Op β)) (pre post : List (WEv β)) (now : Nat) (h : (run t ops).log = pre ++ .ended now :: post) :
    (∃ (p q : List (WEv β)) (t0 : Nat), pre = p ++ .next t0 :: q ∧ (∀ e ∈ q, isAnswer e = false) ∧
      ((feed pre)[(obtained pre).length]? = some none ∨ (0 ≤ t ∧ (t0 : Int) + t ≤ now))) ∧
    ∃ post', post = .released :: post' ∧ ∀ e ∈ post', isAnswer e = false ∧ isNext e = false := by
  have hok := ok_run t ops
  have hw := winv t ops
  obtain ⟨lops, hs, _⟩ := sim t ops
  generalize run t ops = s at *
  -- split of the listener's log
  have key : ∀ (early : List β) (pre : List (WEv β)), early.map .msg ++ s.L.log.map view = pre ++ .ended now :: post →
      ∃ pre', pre = early.map .msg ++ pre' ∧ s.L.log.map view = pre' ++ .ended now :: post := by
    intro early
    induction early with
    | nil => intro pre e; exact ⟨pre, by simp, by simpa using e⟩
    | cons a early ih =>
      intro pre e
      cases pre with
      | nil => simp at e
      | cons x pre =>
        simp at e
        obtain ⟨pre', e1, e2⟩ := ih pre e.2
        exact ⟨pre', by rw [e1, ← e.1]; rfl, e2⟩
  obtain ⟨pre', e1, e2⟩ := key s.early pre h
  obtain ⟨l1, l2, f1, f2, f3⟩ := List.map_eq_append_iff.1 e2
  obtain ⟨x, l3, f4, f5, f6⟩ := List.map_eq_cons_iff.1 f3
  subst f4
  have hx : x = .got (some none) now ∨ x = .got none now := by
    cases x with
    | emitted a n => cases a <;> simp [view] at f5
    | got r n => cases r with
      | none => simp [view] at f5; right; rw [f5]
      | some a => cases a with
        | none => simp [view] at f5; left; rw [f5]
        | some b => simp [view] at f5
    | destroyed n => simp [view] at f5
    | next n => simp [view] at f5
    | dropped => simp [view] at f5
  have hend : isEnd x = true := by rcases hx with rfl | rfl <;> rfl
  constructor
  · have ok1 : OK t l1 := by rw [f1] at hok; exact hok.prefix
    have hokx : Listener.Spec.ok (Listener.Spec.after t l1) x := hok.legal l1 x l3 f1
    -- the question
    have hq : ∃ p q t0, l1 = p ++ .next t0 :: q ∧ ∀ e ∈ q, Listener.isGot e = false := by
      have key2 : ∀ l : List (Ev (Option β)), (Listener.Spec.after t l).wait.isSome = true → ∃ p q t0, l = p ++ .next t0 :: q ∧ ∀ e ∈ q, Listener.isGot e = false := by
        intro l
        induction l using snocInd with
        | nil => intro e; cases e
        | snoc l e ih =>
          intro hsm
          rw [Listener.Spec.after_snoc] at hsm
          have app : Listener.isGot e = false → (Listener.Spec.after t l).wait.isSome = true → ∃ p q t0, l ++ [e] = p ++ .next t0 :: q ∧ ∀ e ∈ q, Listener.isGot e = false := by
            intro he hsm
            obtain ⟨p, q, t0, g1, g2⟩ := ih hsm
            refine ⟨p, q ++ [e], t0, by rw [g1]; simp, ?_⟩
            intro y hy; simp at hy; rcases hy with hy | rfl
            · exact g2 y hy
            · exact he
          cases e with
          | emitted a n => exact app rfl hsm
          | destroyed n => exact app rfl hsm
          | dropped => exact app rfl hsm
          | next n => exact ⟨l, [], n, rfl, by simp⟩
          | got r n => cases r <;> cases hsm
      apply key2
      rcases hx with rfl | rfl
      · exact hokx.1
      · obtain ⟨t0, d, g1, _⟩ := hokx; rw [g1]; rfl
    obtain ⟨p, q, t0, g1, g2⟩ := hq
    have hpre : pre = (s.early.map .msg ++ p.map view) ++ .next t0 :: q.map view := by
      rw [e1, ← f2, g1]; simp [view]
    refine ⟨_, _, t0, hpre, ?_, ?_⟩
    · intro e he
      obtain ⟨y, hy, rfl⟩ := List.mem_map.1 he
      rw [isAnswer_view]; exact g2 y hy
    · have hpre2 : pre = s.early.map .msg ++ l1.map view := by rw [e1, f2]
      have hfe : feed pre = Listener.emissions l1 := by rw [hpre2]; exact feed_eq s.early ok1 ⟨t0, by rw [g1]; simp⟩
      rcases hx with rfl | rfl
      · left
        have hlast1 : Listener.gots l1 = (obtained pre).map some := by
          rcases gots_form s.early ok1 with ⟨e, _⟩ | ⟨e, n, hn⟩
          · rw [e, hpre2]
          · exfalso
            obtain ⟨a, b, e'⟩ := List.append_of_mem hn
            rcases hok.fine.ends a (.got (some none) n) (b ++ .got (some none) now :: l3) (by rw [f1, e']; simp) rfl with hb | ⟨b', hb⟩
            · simp at hb
            · cases b with
              | nil => simp at hb
              | cons y b2 =>
                simp at hb
                obtain ⟨rfl, _⟩ := hb
                have hlg := hok.legal
                rw [f1, e'] at hlg
                have := (after_dropped (p := a ++ [.got (some none) n]) (q := b2 ++ .got (some none) now :: l3) (by simpa using hlg) (.got (some none) now) (by simp)).1
                cases this
        have hsf := Listener.spec_facts l1 ok1.legal
        have := hokx.2.2
        rw [hsf.1, hsf.2.1, hlast1, List.length_map] at this
        rw [hfe]; exact this
      · right
        obtain ⟨t1, d, k1, k2, k3⟩ := hokx
        have hwait : (Listener.Spec.after t l1).wait = some (t0, false) := by
          have halive : ∀ l : List (Ev (Option β)), (∀ n, .destroyed n ∉ l) → (Listener.Spec.after t l).alive = true := by
            intro l
            induction l using snocInd with
            | nil => intro _; rfl
            | snoc l e ih =>
              intro hnd
              have := ih (fun n hn => hnd n (by simp [hn]))
              rw [Listener.Spec.after_snoc]
              cases e with
              | destroyed n => exact absurd (by simp) (hnd n)
              | got r n => cases r <;> exact this
              | _ => exact this
          have hnd1 : ∀ n, .destroyed n ∉ l1 := ok1.fine.nodest
          have key3 : ∀ q : List (Ev (Option β)), (∀ e ∈ q, Listener.isGot e = false) → Legal Listener.Spec.next Listener.Spec.ok { timeout := t } (p ++ .next t0 :: q) →
              (Listener.Spec.after t (p ++ .next t0 :: q)).wait = some (t0, false) := by
            intro q
            induction q using snocInd with
            | nil =>
              intro _ _
              rw [Listener.Spec.after_snoc]
              simp only [Listener.Spec.next]
              rw [halive p (fun n hn => hnd1 n (by rw [g1]; simp [hn]))]; rfl
            | snoc q e ih =>
              intro hq hl
              rw [show p ++ Ev.next t0 :: (q ++ [e]) = (p ++ Ev.next t0 :: q) ++ [e] by simp] at hl ⊢
              have i1 := ih (fun y hy => hq y (by simp [hy])) hl.prefix
              have hoke : Listener.Spec.ok (Listener.Spec.after t (p ++ .next t0 :: q)) e := hl _ e [] rfl
              have hne := hq e (by simp)
              rw [Listener.Spec.after_snoc]
              cases e with
              | got r n => cases hne
              | next n => have := hoke.1; rw [i1] at this; cases this
              | _ => exact i1
          rw [g1]; exact key3 q g2 (by rw [← g1]; exact ok1.legal)
        rw [hwait] at k1; cases k1
        rcases k3 with k3 | ⟨_, k4, k5⟩
        · cases k3
        · rw [Listener.after_timeout] at k4 k5; exact ⟨k4, k5⟩
  · rcases hok.fine.ends l1 x l3 f1 hend with hq | ⟨q', hq⟩
    · have := hw.last; rw [f1, hq, endsNow_snoc, hend] at this; cases this
    · subst hq
      refine ⟨q'.map view, by rw [← f6]; rfl, ?_⟩
      intro e he
      obtain ⟨y, hy, rfl⟩ := List.mem_map.1 he
      have hlg := hok.legal
      rw [f1] at hlg
      obtain ⟨a1, a2⟩ := after_dropped (p := l1 ++ [x]) (by simpa using hlg) y hy
      refine ⟨by rw [isAnswer_view]; exact a1, ?_⟩
      cases hn : isNext (view y) with
      | false => rfl
      | true => obtain ⟨k, rfl⟩ := (isNext_view y).1 hn; exact absurd rfl (a2 k)

/-- The consumer suspends on something else only before its first `begin()` or after the generator is released. -/
def Polite (t : Int) (ops : List (Op β)) : Prop :=
  ∀ p q, ops = p ++ .pause :: q → (∀ n, .next n ∉ (run t p).log) ∨ .released ∈ (run t p).log

/-- Such a consumer meets no undefined behaviour, whatever the socket, the event loop and the clock do. -/
theorem C53_safe_if_only_iterating (t : Int) (ops : List (Op β)) (hp : Polite t ops) : (run t ops).L.ub = none := by
  obtain ⟨lops, hs, hpause⟩ := sim t ops
  rw [hs]
  apply Listener.C33_safe_if_only_iterating
  intro p q e
  obtain ⟨p', q', e1, e2⟩ := hpause p q e
  rw [← e2]
  rcases hp p' q' e1 with h | h
  · left
    intro n hn
    apply h n
    unfold State.log
    rw [List.mem_append]; right
    exact List.mem_map.2 ⟨_, hn, rfl⟩
  · right
    unfold State.log at h
    rw [List.mem_append] at h
    rcases h with h | h
    · obtain ⟨a, _, ha⟩ := List.mem_map.1 h; cases ha
    · obtain ⟨e, he, hv⟩ := List.mem_map.1 h
      cases e with
      | dropped => exact he
      | destroyed n => exact absurd he ((winv t p').fine.nodest n)
      | emitted a n => cases a <;> cases hv
      | next n => cases hv
      | got r n => cases r with
        | none => cases hv
        | some a => cases a <;> cases hv

/-- Found: messages that arrive between the call of `textMessages()` and the first `begin()` are lost. -/
theorem C53_before_begin_lost :
    (run (-1) [.msg 1, .next, .msg (2 : Nat), .deliver]).log = [.msg 1, .next 0, .msg 2, .got 2] := by decide

/-- Found: a consumer that suspends on something else between two messages is resumed there by the next message. -/
theorem C53_busy_consumer_ub :
    (run (-1) [.next, .msg (1 : Nat), .deliver, .pause, .msg 2, .deliver]).L.ub = some .spuriousResume := by decide

/-- Found: without a timeout a socket that goes away without reporting a state change leaves the consumer waiting. -/
theorem C53_silent_hang (ops : List (Op β)) (h : ∀ op ∈ ops, op = .deliver ∨ op = .fire ∨ ∃ d, op = .time d) :
    (run (-1) (.next :: ops)).log = [.next 0] := by
  have key : (run (-1) (.next :: ops)).log = [.next 0] ∧ (run (-1) (.next :: ops)).L.posted = [] ∧ (run (-1) (.next :: ops)).L.timer = none ∧
      (run (-1) (.next :: ops)).L.running = false ∧ (run (-1) (.next :: ops)).L.ub = none ∧ (run (-1) (.next :: ops)).early = [] ∧ (run (-1) (.next :: ops)).L.log = [.next 0] := by
    induction ops using snocInd with
    | nil => exact ⟨rfl, rfl, rfl, rfl, rfl, rfl, rfl⟩
    | snoc ops op ih =>
      obtain ⟨a, b, c, d, e, f, g⟩ := ih (fun o ho => h o (by simp [ho]))
      rw [← List.cons_append, run_snoc]
      generalize run (-1) (.next :: ops) = s at *
      have hf : fin s.L = s.L := by unfold fin; simp [g, endsNow, isEnd]
      rcases h op (by simp) with rfl | rfl | ⟨k, rfl⟩
      · have : Listener.step s.L .deliver = s.L := by unfold Listener.step; rw [if_neg (by simp [e])]; simp [d, b]
        simp only [step]; rw [this, hf]; exact ⟨a, b, c, d, e, f, g⟩
      · have : Listener.step s.L .fire = s.L := by unfold Listener.step; rw [if_neg (by simp [e])]; simp [d, c]
        simp only [step]; rw [this, hf]; exact ⟨a, b, c, d, e, f, g⟩
      · have : Listener.step s.L (.time k) = { s.L with now := s.L.now + k } := by unfold Listener.step; rw [if_neg (by simp [e])]
        simp only [step, State.log]; rw [this]
        exact ⟨by simp [f, g, view], b, c, d, e, f, g⟩
  exact key.1

/-- Concrete cases: three messages, two of them in a burst, then a disconnect; messages after the disconnect are not delivered. -/
example : (run (-1) [.msg 0, .next, .msg (1 : Nat), .msg 2, .deliver, .next, .deliver, .state true, .next, .state false, .msg 3, .deliver, .msg 4]).log =
    [.msg 0, .next 0, .msg 1, .msg 2, .got 1, .next 0, .got 2, .next 0, .disc, .msg 3, .ended 0, .released, .msg 4] := by decide
example : (run 5 [.next, .msg (1 : Nat), .deliver, .next, .time 5, .fire]).log = [.next 0, .msg 1, .got 1, .next 0, .ended 5, .released] := by decide
example : Asked (run 5 [.next, .msg (1 : Nat)]).log 0 ∧ (feed (run 5 [.next, .msg (1 : Nat)]).log)[(obtained (run 5 [.next, .msg (1 : Nat)]).log).length]? = some (some 1) :=
  ⟨⟨[], [.msg 1], by decide, by simp [isAnswer]⟩, by decide⟩
example : let s := run (-1) [.next, .msg (1 : Nat), .deliver, .next, .msg 2, .msg 3, .deliver]
    obtained s.log = [1, 2] ∧ feed s.log = [some 1, some 2, some 3] := by decide
example : Polite (-1) [.pause, .msg (1 : Nat), .deliver, .wake, .next, .msg 2, .deliver, .next] := by
  intro p q h
  left
  have : p = [] := by
    cases p with
    | nil => rfl
    | cons a p =>
      exfalso
      simp at h
      have : Op.pause ∈ [Op.msg (1 : Nat), .deliver, .wake, .next, .msg 2, .deliver, .next] := by rw [h.2]; simp
      simp at this
  subst this; simp [run, State.log]

end QCoro.WebSocketGen
