import Verif.WebSocket.Server
/-
C54, continued: exactly when undefined behaviour happens, and exactly what becomes of every connection that arrives while calls wait.
-/
namespace QCoro.WsServer

theorem ub_append (a b : List Op) (h : (exec a).ub = true) : exec (a ++ b) = exec a := by
  induction b using snocInd with
  | nil => simp
  | snoc b op ih =>
    rw [← List.append_assoc, exec_snoc, ih]
    unfold step; rw [if_pos h]

/-- Functors belong to suspended calls, and are in the order of the waiting calls. -/
theorem fns_facts (ops : List Op) : (∀ i ∈ (exec ops).fns, .suspended i ∈ (exec ops).log) ∧ ((exec ops).waits.map (·.id)).Sublist (exec ops).fns := by
  induction ops using snocInd with
  | nil => simp [exec]
  | snoc ops op ih =>
    have hi := inv_exec ops
    rw [exec_snoc]
    generalize exec ops = s at *
    obtain ⟨h1, h2⟩ := ih
    have fin : ∀ (s1 : State) (i : Nat) (r : Option Nat), s1.fns = s.fns → s1.log = s.log → s1.waits = s.waits →
        (∀ i' ∈ (s1.finish i r).fns, .suspended i' ∈ (s1.finish i r).log) ∧ ((s1.finish i r).waits.map (·.id)).Sublist (s1.finish i r).fns := by
      intro s1 i r e1 e2 e3
      unfold State.finish
      simp only [e1, e2, e3]
      exact ⟨fun j hj => by simp [h1 j hj], ((List.filter_sublist).map _).trans h2⟩
    unfold step
    split
    · exact ⟨h1, h2⟩
    rename_i hub
    cases op with
    | call t =>
      dsimp only; split
      · exact ⟨fun j hj => by simp [h1 j hj], h2⟩
      · split
        · exact ⟨fun j hj => by simp [h1 j hj], h2⟩
        · refine ⟨?_, ?_⟩
          · intro j hj
            simp only [List.mem_append, List.mem_singleton] at hj
            rcases hj with hj | rfl
            · simp [h1 j hj]
            · simp
          · simp only [List.map_append, List.map_cons, List.map_nil]
            exact h2.append (List.Sublist.refl _)
    | newConn c =>
      dsimp only
      have hf := fold_functor s.fns { s with pending := s.pending ++ [c], log := s.log ++ [.conn c] } (by simpa using hub) hi.fnd
      dsimp only at hf
      obtain ⟨e1, e2, e3, _⟩ := hf
      rw [e1, e2, e3]
      exact ⟨fun j hj => by simp [h1 j hj], h2⟩
    | close => exact ⟨fun j hj => by simp [h1 j hj], h2⟩
    | listen => exact ⟨fun j hj => by simp [h1 j hj], h2⟩
    | time d => exact ⟨h1, h2⟩
    | deliver =>
      dsimp only
      obtain ⟨l, hl⟩ : ∃ l, s.posted = l := ⟨_, rfl⟩
      rw [hl]
      cases l with
      | nil => exact ⟨h1, h2⟩
      | cons p rest => exact fin _ _ _ rfl rfl rfl
    | fire i =>
      dsimp only; split
      · exact fin _ _ _ rfl rfl rfl
      · exact ⟨h1, h2⟩

/-- **Exactly when the server is misused by the library**: a connection arrives after some call that had to wait has returned. -/
theorem C54_ub_iff (ops : List Op) :
    (exec ops).ub = true ↔ ∃ p c q i, ops = p ++ .newConn c :: q ∧ .suspended i ∈ (exec p).log ∧ i ∈ rets (exec p).log := by
  constructor
  · induction ops using snocInd with
    | nil => intro h; simp [exec] at h
    | snoc ops op ih =>
      intro h
      by_cases hu : (exec ops).ub = true
      · obtain ⟨p, c, q, i, e, h1, h2⟩ := ih hu
        exact ⟨p, c, q ++ [op], i, by simp [e], h1, h2⟩
      · have hi := inv_exec ops
        have hlog := (fns_facts ops).1
        rw [exec_snoc] at h
        generalize hs : exec ops = s at *
        have hub : s.ub = false := by simpa using hu
        unfold step at h
        rw [if_neg hu] at h
        cases op with
        | call t => dsimp only at h; split at h <;> (try split at h) <;> simp [hub] at h
        | newConn c =>
          dsimp only at h
          have hf := fold_functor s.fns { s with pending := s.pending ++ [c], log := s.log ++ [.conn c] } hub hi.fnd
          dsimp only at hf
          obtain ⟨_, _, _, _, _, _, h7, _⟩ := hf
          have : ¬ ∀ i ∈ s.fns, ∃ w ∈ s.waits, w.id = i := by
            intro ha; have := h7.2 ha; rw [this] at h; cases h
          obtain ⟨i, hif⟩ := Classical.not_forall.1 this
          obtain ⟨hif, hnw⟩ := Classical.not_imp.1 hif
          refine ⟨ops, c, [], i, rfl, ?_, ?_⟩
          · rw [hs]; exact hlog i hif
          · rw [hs]; exact (hi.fnc i hif).resolve_right hnw
        | close => simp [hub] at h
        | listen => simp [hub] at h
        | deliver =>
          dsimp only at h
          obtain ⟨l, hl⟩ : ∃ l, s.posted = l := ⟨_, rfl⟩
          rw [hl] at h
          cases l with
          | nil => simp [hub] at h
          | cons p rest => simp [State.finish, hub] at h
        | time d => simp [hub] at h
        | fire i => dsimp only at h; split at h <;> simp [State.finish, hub] at h
  · rintro ⟨p, c, q, i, rfl, h1, h2⟩
    by_cases hu : (exec p).ub = true
    · rw [ub_append p _ hu]; exact hu
    · have := C54_after_wait_uaf p (by simpa using hu) i h1 h2 c
      rw [show p ++ .newConn c :: q = (p ++ [.newConn c]) ++ q by simp, ub_append _ q this]; exact this

/-! ### What happens to the connections that arrive while calls wait -/

/-- Every call that ever had to wait is still waiting, and no undefined behaviour has happened. -/
structure Busy (s : State) : Prop where
  ub : s.ub = false
  all : s.fns = s.waits.map (·.id)

theorem busy_of (ops : List Op) (hu : (exec ops).ub = false) (h : ∀ i, .suspended i ∈ (exec ops).log → i ∉ rets (exec ops).log) : Busy (exec ops) := by
  have hi := inv_exec ops
  obtain ⟨h1, h2⟩ := fns_facts ops
  refine ⟨hu, (h2.eq_of_length ?_).symm⟩
  apply Nat.le_antisymm h2.length_le
  have hsub : (exec ops).fns ⊆ (exec ops).waits.map (·.id) := by
    intro i hf
    obtain ⟨w, hw, e⟩ := (hi.fnc i hf).resolve_left (h i (h1 i hf))
    exact List.mem_map.2 ⟨w, hw, e⟩
  exact hi.fnd.length_le_of_subset hsub

/-- Nothing has been delivered and no timer looked at. -/
def quiet (mid : List Op) : Prop := ∀ op ∈ mid, op ≠ .deliver ∧ ∀ j, op ≠ .fire j

/-- What a waiting call is handed: the longest waiting one every connection, the other ones nullptr instead; nullptr when the server closes. -/
def handed (first : Bool) : List Op → List (Option Nat)
  | [] => []
  | .newConn c :: l => (if first then some c else none) :: handed first l
  | .close :: l => none :: handed first l
  | _ :: l => handed first l

theorem handed_snoc (f : Bool) (l : List Op) (op : Op) :
    handed f (l ++ [op]) = handed f l ++ (match op with | .newConn c => [if f then some c else none] | .close => [none] | _ => []) := by
  induction l with
  | nil => cases op <;> rfl
  | cons o l ih => cases o <;> simp [handed, ih]

/-- What is on its way to call `j`. -/
def mail (s : State) (j : Nat) : List (Option Nat) := (s.posted.filter (·.1 = j)).map (·.2)

/-- The functors of the waiting calls: what they post. -/
theorem fold_mail (l : List Nat) : ∀ (s : State), s.ub = false → l.Nodup → (∀ i ∈ l, ∃ w ∈ s.waits, w.id = i) → s.pending.length ≤ 1 →
    (l.foldl State.functor s).posted = s.posted ++ (match l, s.pending with | i :: l', p => (i, p.head?) :: l'.map (fun j => (j, none)) | [], _ => []) := by
  induction l with
  | nil => intro s _ _ _ _; simp
  | cons i l ih =>
    intro s hu hnd ha hlen
    have hnd' := List.nodup_cons.1 hnd
    have hai := ha i (by simp)
    have e : s.functor i = { s with pending := s.pending.tail, posted := s.posted ++ [(i, s.pending.head?)] } := by
      unfold State.functor; rw [if_neg (by simp [hu]), if_pos (by simpa using hai)]
    have ih := ih { s with pending := s.pending.tail, posted := s.posted ++ [(i, s.pending.head?)] } hu hnd'.2 (fun j hj => ha j (by simp [hj])) (by simp; omega)
    rw [List.foldl_cons, e, ih]
    have ht : s.pending.tail = [] := by
      apply List.eq_nil_of_length_eq_zero; simp; omega
    simp only [ht]
    cases l with
    | nil => simp
    | cons j l => simp

theorem filter_map_none (j : Nat) (l : List Nat) (hnd : l.Nodup) :
    ((l.map (fun i => (i, (none : Option Nat)))).filter (fun p => decide (p.1 = j))).map (·.2) = if j ∈ l then [none] else [] := by
  induction l with
  | nil => rfl
  | cons i l ih =>
    have hnd' := List.nodup_cons.1 hnd
    have ih := ih hnd'.2
    by_cases hij : i = j
    · subst hij
      rw [if_neg hnd'.1] at ih
      simp only [List.map_cons, List.filter_cons, decide_true, if_true, ih]
      simp
    · simp only [List.map_cons, List.filter_cons, hij, decide_false, Bool.false_eq_true, if_false, ih, List.mem_cons, Ne.symm hij, false_or]

/-- The waits stay as they are, and each waiting call is handed exactly `handed`. -/
theorem busy_mid (ops mid : List Op) (h : Busy (exec ops)) (hm : quiet mid) :
    Busy (exec (ops ++ mid)) ∧ (∃ more, (exec (ops ++ mid)).waits = (exec ops).waits ++ more) ∧
    ∀ w ∈ (exec ops).waits, mail (exec (ops ++ mid)) w.id = mail (exec ops) w.id ++ handed ((exec ops).waits.head?.map (·.id) = some w.id) mid := by
  induction mid using snocInd with
  | nil => exact ⟨by simpa using h, ⟨[], by simp⟩, by simp [handed]⟩
  | snoc mid op ih =>
    obtain ⟨hb, ⟨more, hw⟩, hmail⟩ := ih (fun o ho => hm o (by simp [ho]))
    have h0 := hm op (by simp)
    have hi := inv_exec (ops ++ mid)
    rw [← List.append_assoc, exec_snoc]
    generalize exec (ops ++ mid) = s at *
    generalize exec ops = s0 at *
    unfold step
    rw [if_neg (by simp [hb.ub])]
    cases op with
    | call t =>
      dsimp only
      have hx : ∀ w ∈ s0.waits, mail s w.id = mail s0 w.id ++ handed (s0.waits.head?.map (·.id) = some w.id) (mid ++ [Op.call t]) := by
        intro w hw'; rw [handed_snoc]; simpa using hmail w hw'
      split
      · exact ⟨⟨hb.ub, hb.all⟩, ⟨more, hw⟩, hx⟩
      · split
        · exact ⟨⟨hb.ub, hb.all⟩, ⟨more, hw⟩, hx⟩
        · exact ⟨⟨hb.ub, by simp [hb.all]⟩, ⟨more ++ [⟨s.calls, if t > -1 then some (s.now + t.toNat) else none⟩], by simp [hw]⟩, hx⟩
    | newConn c =>
      dsimp only
      have hall : ∀ i ∈ s.fns, ∃ w ∈ s.waits, w.id = i := by
        intro i hi'; rw [hb.all] at hi'; obtain ⟨w, h1, h2⟩ := List.mem_map.1 hi'; exact ⟨w, h1, h2⟩
      have hs := fold_functor s.fns { s with pending := s.pending ++ [c], log := s.log ++ [.conn c] } hb.ub hi.fnd
      dsimp only at hs
      obtain ⟨_, h2, h3, _, _, _, h7, _, _⟩ := hs
      refine ⟨⟨h7.2 hall, by rw [h3, h2]; exact hb.all⟩, ⟨more, by rw [h2]; exact hw⟩, ?_⟩
      intro w hw'
      have hne : s.waits ≠ [] := by
        intro e; rw [e] at hw
        have := List.append_eq_nil_iff.1 hw.symm
        rw [this.1] at hw'; cases hw'
      have hpd := hi.pend hb.ub hne
      have hp := fold_mail s.fns { s with pending := s.pending ++ [c], log := s.log ++ [.conn c] } hb.ub hi.fnd hall (by simp [hpd])
      simp only [hpd] at hp
      have hwf : w.id ∈ s.fns := by rw [hb.all, hw]; exact List.mem_map.2 ⟨w, by simp [hw'], rfl⟩
      have hfirst : s.fns.head? = s0.waits.head?.map (·.id) := by
        rw [hb.all, hw]
        generalize s0.waits = l0 at hw'
        cases l0 with
        | nil => cases hw'
        | cons a l => rfl
      rw [handed_snoc, ← List.append_assoc, ← hmail w hw', ← hfirst]
      unfold mail
      simp only [hpd, List.nil_append] at hp ⊢
      rw [hp, List.filter_append, List.map_append]
      congr 1
      have hnd := hi.fnd
      generalize s.fns = f at *
      cases f with
      | nil => cases hwf
      | cons i l =>
        have hnd' := List.nodup_cons.1 hnd
        simp only [List.head?_cons]
        rw [List.filter_cons]
        by_cases hij : i = w.id
        · subst hij
          have := filter_map_none w.id l hnd'.2
          rw [if_neg hnd'.1] at this
          simp only [decide_true, if_true, List.map_cons, this]
        · have := filter_map_none w.id l hnd'.2
          rw [if_pos (by rcases List.mem_cons.1 hwf with e | e; exact absurd e.symm hij; exact e)] at this
          simp only [hij, decide_false, Bool.false_eq_true, if_false, this, Option.some.injEq]
    | close =>
      refine ⟨⟨hb.ub, hb.all⟩, ⟨more, hw⟩, ?_⟩
      intro w hw'
      rw [handed_snoc, ← List.append_assoc, ← hmail w hw']
      unfold mail
      simp only [List.filter_append, List.map_append]
      congr 1
      have := filter_map_none w.id (s.waits.map (·.id)) hi.wnd
      rw [List.map_map, if_pos (List.mem_map.2 ⟨w, by rw [hw]; simp [hw'], rfl⟩)] at this
      exact this
    | listen => exact ⟨⟨hb.ub, hb.all⟩, ⟨more, hw⟩, by intro w hw'; rw [handed_snoc, List.append_nil]; exact hmail w hw'⟩
    | time d => exact ⟨⟨hb.ub, hb.all⟩, ⟨more, hw⟩, by intro w hw'; rw [handed_snoc, List.append_nil]; exact hmail w hw'⟩
    | deliver => exact absurd rfl h0.1
    | fire j => exact absurd rfl (h0.2 j)

/-- The sockets among what a call is handed. -/
def socks (l : List (Option Nat)) : List Nat := l.filterMap id

theorem finish_log (s : State) (i : Nat) (r : Option Nat) :
    (s.finish i r).log = s.log ++ .ret i r s.now :: (socks (mail s i)).map .lost := by
  unfold State.finish socks mail
  simp only [List.append_assoc, List.cons_append, List.nil_append, List.append_cancel_left_eq, List.cons.injEq, true_and]
  generalize s.posted = l
  induction l with
  | nil => rfl
  | cons p l ih =>
    obtain ⟨j, x⟩ := p
    by_cases hj : j = i
    · subst hj; cases x <;> simp_all [List.filterMap_cons]
    · simp_all [List.filterMap_cons]

/-- **Exactly what becomes of the connections that arrive while calls wait**, as long as no call that had to wait has returned yet.  `w` is one of
the waiting calls, to which nothing is on its way yet.  Whatever happens before the event loop gets to it (`mid`), the call is handed
`handed … mid`.  When its turn comes, it returns the first of these, and all other sockets it was handed are lost; if its timer comes
first, it returns nullptr and every socket it was handed is lost. -/
theorem wait_exact_of_state (ops : List Op) (hu : (exec ops).ub = false) (hs : ∀ i, .suspended i ∈ (exec ops).log → i ∉ rets (exec ops).log) (w : Wait) (hw : w ∈ (exec ops).waits) (hno : mail (exec ops) w.id = [])
    (mid : List Op) (hm : quiet mid) :
    let s := exec (ops ++ mid); let m := handed ((exec ops).waits.head?.map (·.id) = some w.id) mid
    (s.posted.head?.map (·.1) = some w.id → ∃ r rest, m = r :: rest ∧
      (exec (ops ++ mid ++ [.deliver])).log = s.log ++ .ret w.id r s.now :: (socks rest).map .lost) ∧
    (w.dueBy s.now = true → (exec (ops ++ mid ++ [.fire w.id])).log = s.log ++ .ret w.id none s.now :: (socks m).map .lost) ∧
    (w.dueBy s.now = false → (exec (ops ++ mid ++ [.fire w.id])).log = s.log) := by
  obtain ⟨hb, ⟨more, hw2⟩, hmail⟩ := busy_mid ops mid (busy_of ops hu hs) hm
  have hmail := hmail w hw
  rw [hno, List.nil_append] at hmail
  have hi := inv_exec (ops ++ mid)
  have hws : w ∈ (exec (ops ++ mid)).waits := by rw [hw2]; simp [hw]
  simp only [exec_snoc]
  rw [← hmail]
  generalize exec (ops ++ mid) = s at *
  refine ⟨?_, ?_, ?_⟩
  · intro hhead
    obtain ⟨l, hl⟩ : ∃ l, s.posted = l := ⟨_, rfl⟩
    cases l with
    | nil => rw [hl] at hhead; cases hhead
    | cons p rest =>
      obtain ⟨j, r⟩ := p
      rw [hl] at hhead
      simp only [List.head?_cons, Option.map_some, Option.some.injEq] at hhead
      subst hhead
      refine ⟨r, mail { s with posted := rest } w.id, by simp [mail, hl], ?_⟩
      unfold step
      rw [if_neg (by simp [hb.ub])]
      simp only [hl]
      rw [finish_log]
  · intro hd
    unfold step
    rw [if_neg (by simp [hb.ub])]
    dsimp only
    rw [if_pos (List.any_eq_true.2 ⟨w, hws, by simp [hd]⟩), finish_log]
  · intro hd
    unfold step
    rw [if_neg (by simp [hb.ub])]
    dsimp only
    rw [if_neg]
    intro hany
    obtain ⟨w', hw', e⟩ := List.any_eq_true.1 hany
    simp at e
    have : w' = w := by
      have hnd := hi.wnd
      apply Classical.byContradiction
      intro hne
      rw [List.nodup_iff_pairwise_ne, List.pairwise_map] at hnd
      rcases List.append_of_mem hw' with ⟨a, b, eab⟩
      rw [eab] at hnd hws
      rw [List.pairwise_append] at hnd
      rcases List.mem_append.1 hws with hx | hx
      · exact hnd.2.2 w hx w' (by simp) e.1.symm
      · rcases List.mem_cons.1 hx with hx | hx
        · exact hne hx.symm
        · exact (List.pairwise_cons.1 hnd.2.1).1 w hx e.1
    rw [this, hd] at e
    exact absurd e.2 (by simp)

/-- A state with two waiting calls, and what they get. -/
example : let s := exec [.newConn 9, .call 3, .call 5, .call (-1)]
    s.ub = false ∧ ∀ i, .suspended i ∈ s.log → i ∉ rets s.log := by
  refine ⟨by decide, ?_⟩
  intro i h
  have hl : (exec [.newConn 9, .call 3, .call 5, .call (-1)]).log =
    [.conn 9, .called 0 3 0, .ret 0 (some 9) 0, .called 1 5 0, .suspended 1, .called 2 (-1) 0, .suspended 2] := by decide
  rw [hl] at h ⊢
  simp at h
  rcases h with rfl | rfl <;> decide
example : (exec [.newConn 9, .call 3, .call 5, .call (-1)]).waits = [⟨1, some 5⟩, ⟨2, none⟩] := by decide
example : mail (exec [.newConn 9, .call 3, .call 5, .call (-1)]) 1 = [] ∧ quiet [.newConn 1, .time 5, .newConn 2, .close] := by
  refine ⟨by decide, ?_⟩; intro op h; simp at h; rcases h with rfl | rfl | rfl | rfl <;> simp
example : handed true [.newConn 1, .time 5, .newConn 2, .close] = [some 1, some 2, none] ∧ handed false [.newConn 1, .time 5, .newConn 2, .close] = [none, none, none] := by decide
example : ∃ p c q i, [Op.call 0, .fire 0, .time 1, .newConn 7] = p ++ .newConn c :: q ∧ .suspended i ∈ (exec p).log ∧ i ∈ rets (exec p).log :=
  ⟨[.call 0, .fire 0, .time 1], 7, [], 0, rfl, by decide, by decide⟩

end QCoro.WsServer
