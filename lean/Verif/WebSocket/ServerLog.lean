import Verif.WebSocket.ServerExact
/-
C54, in terms of what can be observed: which calls wait, since when, and what has happened on the server since.
-/
namespace QCoro.WsServer

/-! ### Specification, in terms of the history -/

/-- Call `i`, made at time `t0` with timeout `t`, had to wait and has not returned. -/
def Waiting (l : List Ev) (i : Nat) (t : Int) (t0 : Nat) : Prop := .called i t t0 ∈ l ∧ .suspended i ∈ l ∧ i ∉ rets l

/-- Something that concerns waiting calls. -/
def isNews : Ev → Bool | .conn _ => true | .closed => true | _ => false

/-- No connection has arrived and the server has not been closed since call `i` began to wait. -/
def NoNews (l : List Ev) (i : Nat) : Prop := ∀ p q, l = p ++ .suspended i :: q → ∀ e ∈ q, isNews e = false

/-- The calls that had to wait, in order. -/
def suspId : Ev → Option Nat | .suspended i => some i | _ => none
/-- The calls that had to wait, in order. -/
def susps (l : List Ev) : List Nat := l.filterMap suspId

/-- The calls made, with their timeouts and times. -/
def callId : Ev → Option (Nat × Int × Nat) | .called i t t0 => some (i, t, t0) | _ => none

/-! ### Proofs -/

theorem susps_append (a b : List Ev) : susps (a ++ b) = susps a ++ susps b := by simp [susps]

theorem mem_susps (l : List Ev) (i : Nat) : i ∈ susps l ↔ .suspended i ∈ l := by
  unfold susps
  rw [List.mem_filterMap]
  constructor
  · rintro ⟨e, he, h⟩; cases e <;> simp [suspId] at h; subst h; exact he
  · intro h; exact ⟨_, h, rfl⟩

/-- Proof invariant. -/
structure LInv (s : State) : Prop where
  fns : s.fns = susps s.log
  uniq : ∀ i t t0 t' t0', .called i t t0 ∈ s.log → .called i t' t0' ∈ s.log → t = t' ∧ t0 = t0'
  post : ∀ p ∈ s.posted, ∃ a b, s.log = a ++ .suspended p.1 :: b ∧ ∃ e ∈ b, isNews e = true

theorem linv_exec (ops : List Op) : LInv (exec ops) := by
  induction ops using snocInd with
  | nil => exact ⟨rfl, by simp [exec], by simp [exec]⟩
  | snoc ops op ih =>
    have hi := inv_exec ops
    rw [exec_snoc]
    generalize exec ops = s at *
    -- what only appends events that are neither calls nor suspensions, and posts nothing new
    have keep : ∀ (s' : State) (m : List Ev), s'.log = s.log ++ m → s'.fns = s.fns → susps m = [] → (∀ i t t0, .called i t t0 ∉ m) →
        (∀ p ∈ s'.posted, p ∈ s.posted) → LInv s' := by
      intro s' m hl hf hm hc hp
      refine ⟨by rw [hf, hl, susps_append, hm, List.append_nil]; exact ih.fns, ?_, ?_⟩
      · intro i t t0 t' t0' h1 h2
        rw [hl] at h1 h2
        have f1 := (List.mem_append.1 h1).resolve_right (hc _ _ _)
        have f2 := (List.mem_append.1 h2).resolve_right (hc _ _ _)
        exact ih.uniq _ _ _ _ _ f1 f2
      · intro p hp'
        obtain ⟨a, b, e, x, hx, h⟩ := ih.post p (hp p hp')
        exact ⟨a, b ++ m, by simp [hl, e], x, by simp [hx], h⟩
    have fin : ∀ (s1 : State) (i : Nat) (r : Option Nat), s1.fns = s.fns → s1.log = s.log → (∀ p ∈ s1.posted, p ∈ s.posted) → LInv (s1.finish i r) := by
      intro s1 i r e1 e2 e3
      refine keep (s1.finish i r) (.ret i r s1.now :: (socks (mail s1 i)).map .lost) (by rw [finish_log, e2]) e1 ?_ ?_ ?_
      · unfold susps
        simp only [List.filterMap_cons, suspId, List.filterMap_map]
        apply List.filterMap_eq_nil_iff.2; intro a _; rfl
      · intro i t t0 h; simp at h
      · intro p hp; unfold State.finish at hp; exact e3 p (List.mem_filter.1 hp).1
    have call : ∀ (t : Int) (e : Ev), callId e = none → ∀ i t1 t0 t' t0', Ev.called i t1 t0 ∈ s.log ++ [.called s.calls t s.now] ++ [e] →
        Ev.called i t' t0' ∈ s.log ++ [.called s.calls t s.now] ++ [e] → t1 = t' ∧ t0 = t0' := by
      intro t e he i t1 t0 t' t0' h1 h2
      have ne : ∀ i t t0, Ev.called i t t0 ≠ e := by intro i t t0 h; rw [← h] at he; simp [callId] at he
      simp only [List.mem_append, List.mem_singleton, ne, or_false] at h1 h2
      rcases h1 with h1 | h1 <;> rcases h2 with h2 | h2
      · exact ih.uniq _ _ _ _ _ h1 h2
      · simp only [Ev.called.injEq] at h2; have := hi.clt _ _ _ h1; omega
      · simp only [Ev.called.injEq] at h1; have := hi.clt _ _ _ h2; omega
      · simp only [Ev.called.injEq] at h1 h2; exact ⟨h1.2.1.trans h2.2.1.symm, h1.2.2.trans h2.2.2.symm⟩
    have old : ∀ m : List Ev, ∀ p ∈ s.posted, ∃ a b, s.log ++ m = a ++ .suspended p.1 :: b ∧ ∃ e ∈ b, isNews e = true := by
      intro m p hp
      obtain ⟨a, b, e, x, hx, h⟩ := ih.post p hp
      exact ⟨a, b ++ m, by simp [e], x, by simp [hx], h⟩
    have new : ∀ (m : List Ev) (i : Nat), (∃ w ∈ s.waits, w.id = i) → (∃ e ∈ m, isNews e = true) →
        ∃ a b, s.log ++ m = a ++ .suspended i :: b ∧ ∃ e ∈ b, isNews e = true := by
      rintro m i ⟨w, hw, rfl⟩ ⟨e, he, h⟩
      have h1 := hi.wfn w hw
      rw [ih.fns, mem_susps] at h1
      obtain ⟨a, b, hab⟩ := List.append_of_mem h1
      exact ⟨a, b ++ m, by simp [hab], e, by simp [he], h⟩
    unfold step
    split
    · exact ih
    rename_i hub
    cases op with
    | call t =>
      dsimp only; split
      · refine ⟨?_, call t _ rfl, ?_⟩
        · simp [susps_append, ih.fns]; simp [susps, suspId]
        · intro p hp; rw [List.append_assoc]; exact old _ p hp
      · split
        · refine ⟨?_, call t _ rfl, ?_⟩
          · simp [susps_append, ih.fns]; simp [susps, suspId]
          · intro p hp; rw [List.append_assoc]; exact old _ p hp
        · refine ⟨?_, call t _ rfl, ?_⟩
          · simp only [susps_append, ih.fns]; simp [susps, suspId]
          · intro p hp; rw [List.append_assoc]; exact old _ p hp
    | newConn c =>
      dsimp only
      have hf := fold_functor s.fns { s with pending := s.pending ++ [c], log := s.log ++ [.conn c] } (by simpa using hub) hi.fnd
      dsimp only at hf
      obtain ⟨e1, e2, e3, _, _, _, _, ⟨m, e8, e9, _⟩, _⟩ := hf
      refine ⟨?_, ?_, ?_⟩
      · rw [e1, e3, susps_append, ih.fns]; simp [susps, suspId]
      · rw [e1]; intro i t t0 t' t0' h1 h2; simp at h1 h2; exact ih.uniq _ _ _ _ _ h1 h2
      · rw [e1, e8]; intro p hp
        rcases List.mem_append.1 hp with hp | hp
        · exact old _ p hp
        · exact new _ _ (e9 p hp).2 ⟨_, .head _, rfl⟩
    | close =>
      refine ⟨?_, ?_, ?_⟩
      · dsimp only; rw [susps_append, susps_append, ih.fns]
        rw [show susps (s.pending.map .rejected) = [] from by
          unfold susps; rw [List.filterMap_map]; apply List.filterMap_eq_nil_iff.2; intro a _; rfl]
        simp [susps, suspId]
      · intro i t t0 t' t0' h1 h2; simp at h1 h2; exact ih.uniq _ _ _ _ _ h1 h2
      · dsimp only; intro p hp
        rw [List.append_assoc]
        rcases List.mem_append.1 hp with hp | hp
        · exact old _ p hp
        · obtain ⟨w, hw, rfl⟩ := List.mem_map.1 hp
          exact new _ _ ⟨w, hw, rfl⟩ ⟨.closed, by simp, rfl⟩
    | listen => exact keep _ [.listen] rfl rfl rfl (by simp) (fun _ h => h)
    | time d => exact keep _ [] (by simp) rfl rfl (by simp) (fun _ h => h)
    | deliver =>
      dsimp only
      obtain ⟨l, hl⟩ : ∃ l, s.posted = l := ⟨_, rfl⟩
      rw [hl]
      cases l with
      | nil => exact ih
      | cons p rest => exact fin _ _ _ rfl rfl (by intro p' hp'; rw [hl]; exact .tail _ hp')
    | fire i =>
      dsimp only; split
      · exact fin _ _ _ rfl rfl (fun _ h => h)
      · exact ih

/-- The waiting calls of the history are those the model has. -/
theorem waiting_state {ops : List Op} {i : Nat} {t : Int} {t0 : Nat} (h : Waiting (exec ops).log i t t0) : ⟨i, due t t0⟩ ∈ (exec ops).waits := by
  have hi := inv_exec ops
  have hl := linv_exec ops
  generalize exec ops = s at *
  obtain ⟨h1, h2, h3⟩ := h
  obtain ⟨w, hw, rfl⟩ := (hi.fnc i (hi.susp i h2)).resolve_left h3
  obtain ⟨p, t', t0', q, e, hd⟩ := hi.wcall w hw
  have hm : Ev.called w.id t' t0' ∈ s.log := by rw [e]; simp
  obtain ⟨rfl, rfl⟩ := hl.uniq _ _ _ _ _ h1 hm
  obtain ⟨id, d⟩ := w
  simp only at hd
  subst hd; exact hw

theorem state_waiting {ops : List Op} {w : Wait} (h : w ∈ (exec ops).waits) : ∃ t t0, Waiting (exec ops).log w.id t t0 ∧ w.due = due t t0 := by
  have hi := inv_exec ops
  have hl := linv_exec ops
  generalize exec ops = s at *
  obtain ⟨p, t, t0, q, e, hd⟩ := hi.wcall w h
  refine ⟨t, t0, ⟨by rw [e]; simp, ?_, hi.wret w h⟩, hd⟩
  rw [← mem_susps, ← hl.fns]; exact hi.wfn w h

theorem nonews_mail {ops : List Op} {i : Nat} (h : NoNews (exec ops).log i) : mail (exec ops) i = [] := by
  have hl := linv_exec ops
  generalize exec ops = s at *
  unfold mail
  rw [List.map_eq_nil_iff, List.filter_eq_nil_iff]
  intro p hp hpi
  simp at hpi
  obtain ⟨a, b, e, x, hx, hn⟩ := hl.post p hp
  rw [hpi] at e
  rw [h a b e x hx] at hn; cases hn

theorem due_iff (t : Int) (t0 now : Nat) (i : Nat) : (Wait.dueBy ⟨i, due t t0⟩ now = true) ↔ 0 ≤ t ∧ (t0 : Int) + t ≤ now := by
  unfold Wait.dueBy due
  by_cases h : t > -1
  · rw [if_pos h]; simp; omega
  · rw [if_neg h]; simp; omega

theorem firstWait_of {ops : List Op} {i : Nat} {t : Int} {t0 : Nat} (hu : (exec ops).ub = false) (hw : Waiting (exec ops).log i t t0)
    (hone : ∀ j, .suspended j ∈ (exec ops).log → j = i) (hq : NoNews (exec ops).log i) : FirstWait (exec ops) i (due t t0) := by
  have hws := waiting_state hw
  have hm := nonews_mail hq
  have hi := inv_exec ops
  have hl := linv_exec ops
  obtain ⟨h1, h2, h3⟩ := hw
  generalize exec ops = s at *
  have hfall : ∀ j ∈ s.fns, j = i := by intro j hj; rw [hl.fns, mem_susps] at hj; exact hone j hj
  have hmem : i ∈ s.fns := hi.susp i h2
  have hf : s.fns = [i] := by
    have hn := hi.fnd
    generalize s.fns = f at *
    match f with
    | [] => cases hmem
    | [a] => rw [hfall a (by simp)]
    | a :: b :: r =>
      have := hfall a (by simp); have h5 := hfall b (by simp)
      simp [this, h5] at hn
  have hwall : ∀ w ∈ s.waits, w.id = i := fun w hw => hfall _ (hi.wfn w hw)
  have hwl : s.waits = [⟨i, due t t0⟩] := by
    have hn := hi.wnd
    generalize s.waits = f at *
    match f with
    | [] => cases hws
    | [a] => rw [List.mem_singleton.1 hws]
    | a :: b :: r =>
      have := hwall a (by simp); have h5 := hwall b (by simp)
      simp [this, h5] at hn
  refine ⟨hwl, hf, ?_, hu⟩
  apply List.eq_nil_iff_forall_not_mem.2
  intro p hp
  obtain ⟨w, hw, e⟩ := hi.post p hp
  have hpi : p.1 = i := by rw [← e]; exact hwall w hw
  have : p.2 ∈ mail s i := List.mem_map.2 ⟨p, List.mem_filter.2 ⟨hp, by simp [hpi]⟩, rfl⟩
  rw [hm] at this; cases this

/-- A new connection during the wait: the call returns that connection, whatever happens until the event loop gets to it (unless the
timeout fires before that). The call is the only one that ever had to wait. -/
theorem C54_connection (ops : List Op) (hu : (exec ops).ub = false) (i : Nat) (t : Int) (t0 : Nat) (hw : Waiting (exec ops).log i t t0)
    (hone : ∀ j, .suspended j ∈ (exec ops).log → j = i) (hq : NoNews (exec ops).log i) (c : Nat) (mid : List Op) (hm : quiet mid) :
    .ret i (some c) (exec (ops ++ .newConn c :: mid)).now ∈ (exec (ops ++ .newConn c :: mid ++ [.deliver])).log :=
  connection_of_state ops i _ (firstWait_of hu hw hone hq) c mid hm

/-- The server is closed during the wait: the call returns nullptr. -/
theorem C54_close (ops : List Op) (hu : (exec ops).ub = false) (i : Nat) (t : Int) (t0 : Nat) (hw : Waiting (exec ops).log i t t0)
    (hone : ∀ j, .suspended j ∈ (exec ops).log → j = i) (hq : NoNews (exec ops).log i) (mid : List Op) (hm : quiet mid) :
    .ret i none (exec (ops ++ .close :: mid)).now ∈ (exec (ops ++ .close :: mid ++ [.deliver])).log :=
  close_of_state ops i _ (firstWait_of hu hw hone hq) mid hm

/-- The timeout: when the event loop looks at the timer of a waiting call, the call returns nullptr if its time has passed, and otherwise
nothing happens. -/
theorem C54_timeout (ops : List Op) (hu : (exec ops).ub = false) (i : Nat) (t : Int) (t0 : Nat) (hw : Waiting (exec ops).log i t t0) :
    ((0 ≤ t ∧ (t0 : Int) + t ≤ (exec ops).now) → .ret i none (exec ops).now ∈ (exec (ops ++ [.fire i])).log) ∧
    (¬ (0 ≤ t ∧ (t0 : Int) + t ≤ (exec ops).now) → exec (ops ++ [.fire i]) = exec ops) := by
  have h := waiting_state hw
  have hi := inv_exec ops
  refine ⟨fun hd => ?_, fun hd => ?_⟩
  · have hd' := (due_iff t t0 (exec ops).now i).2 hd
    obtain ⟨d, hdd⟩ : ∃ d, due t t0 = some d := by
      obtain ⟨x, hx⟩ : ∃ x, due t t0 = x := ⟨_, rfl⟩
      cases x with
      | none => rw [hx] at hd'; simp [Wait.dueBy] at hd'
      | some d => exact ⟨d, hx⟩
    refine timeout_of_state ops hu _ h d hdd ?_
    simp only [Wait.dueBy, hdd] at hd'
    simpa using hd'
  · rw [← due_iff t t0 (exec ops).now i] at hd
    rw [exec_snoc]
    generalize exec ops = s at *
    unfold step
    rw [if_neg (by simp [hu])]
    dsimp only
    rw [if_neg]
    intro hany
    obtain ⟨w', hw', e⟩ := List.any_eq_true.1 hany
    simp at e
    have : w' = ⟨i, due t t0⟩ := by
      have hnd := hi.wnd
      apply Classical.byContradiction
      intro hne
      rw [List.nodup_iff_pairwise_ne, List.pairwise_map] at hnd
      rcases List.append_of_mem hw' with ⟨a, b, eab⟩
      rw [eab] at hnd h
      rw [List.pairwise_append] at hnd
      rcases List.mem_append.1 h with hx | hx
      · exact hnd.2.2 _ hx w' (by simp) e.1.symm
      · rcases List.mem_cons.1 hx with hx | hx
        · exact hne hx.symm
        · exact (List.pairwise_cons.1 hnd.2.1).1 _ hx e.1
    rw [this] at e
    exact hd e.2

/-- **Exactly what becomes of the connections that arrive while calls wait**, as long as no call that had to wait has returned yet.  Call `i`
waits, and since it began to nothing has happened on the server.  Whatever happens next before the event loop gets to it (`mid`), the call is
handed `handed … mid`: if it is the longest waiting one, every connection.  When its turn comes, it returns the first of these, and all other
sockets it was handed are lost; if its timer comes first, it returns nullptr and every socket it was handed is lost. -/
theorem C54_wait_exact (ops : List Op) (hu : (exec ops).ub = false) (hs : ∀ i, .suspended i ∈ (exec ops).log → i ∉ rets (exec ops).log)
    (i : Nat) (t : Int) (t0 : Nat) (hw : Waiting (exec ops).log i t t0) (hq : NoNews (exec ops).log i) (mid : List Op) (hm : quiet mid) :
    let s := exec (ops ++ mid); let m := handed ((susps (exec ops).log).head? = some i) mid
    (i ∈ rets (exec (ops ++ mid ++ [.deliver])).log → ∃ r rest, m = r :: rest ∧
      (exec (ops ++ mid ++ [.deliver])).log = s.log ++ .ret i r s.now :: (socks rest).map .lost) ∧
    ((0 ≤ t ∧ (t0 : Int) + t ≤ s.now) → (exec (ops ++ mid ++ [.fire i])).log = s.log ++ .ret i none s.now :: (socks m).map .lost) ∧
    (¬ (0 ≤ t ∧ (t0 : Int) + t ≤ s.now) → (exec (ops ++ mid ++ [.fire i])).log = s.log) := by
  have hws := waiting_state hw
  obtain ⟨h1, h2, h3⟩ := wait_exact_of_state ops hu hs _ hws (nonews_mail hq) mid hm
  obtain ⟨hb, ⟨more, hw2⟩, hmail⟩ := busy_mid ops mid (busy_of ops hu hs) hm
  have hfirst : (susps (exec ops).log).head? = (exec ops).waits.head?.map (·.id) := by
    rw [← (linv_exec ops).fns, (busy_of ops hu hs).all, List.head?_map]
  have hnr : i ∉ rets (exec (ops ++ mid)).log := by
    have := (inv_exec (ops ++ mid)).wret ⟨i, due t t0⟩ (by rw [hw2]; simp [hws])
    exact this
  simp only [hfirst]
  dsimp only at h1 h2 h3
  refine ⟨fun hr => h1 ?_, fun hd => h2 ((due_iff _ _ _ _).2 hd), fun hd => h3 ?_⟩
  · rw [exec_snoc] at hr
    generalize exec (ops ++ mid) = s at *
    unfold step at hr
    rw [if_neg (by simp [hb.ub])] at hr
    dsimp only at hr
    obtain ⟨l, hl⟩ : ∃ l, s.posted = l := ⟨_, rfl⟩
    rw [hl] at hr ⊢
    cases l with
    | nil => exact absurd hr hnr
    | cons p rest =>
      simp only at hr
      rw [finish_log, rets_append, List.mem_append] at hr
      have hr := hr.resolve_left hnr
      have : i = p.1 := by
        rw [rets, List.filterMap_cons] at hr
        simp only [retId] at hr
        rcases List.mem_cons.1 hr with e | e
        · exact e
        · rw [List.filterMap_map, List.mem_filterMap] at e
          obtain ⟨a, _, e⟩ := e; simp [retId] at e
      simp [this]
  · cases h : Wait.dueBy ⟨i, due t t0⟩ (exec (ops ++ mid)).now with
    | false => rfl
    | true => exact absurd ((due_iff _ _ _ _).1 h) hd

/-- Two calls wait, one of them with a timeout: the hypotheses are met. -/
example : let l := (exec [.newConn 9, .call 3, .time 2, .call 5, .call (-1)]).log
    Waiting l 1 5 2 ∧ Waiting l 2 (-1) 2 ∧ (susps l).head? = some 1 ∧ NoNews l 1 := by
  have hl : (exec [.newConn 9, .call 3, .time 2, .call 5, .call (-1)]).log =
    [.conn 9, .called 0 3 0, .ret 0 (some 9) 0, .called 1 5 2, .suspended 1, .called 2 (-1) 2, .suspended 2] := by decide
  dsimp only
  rw [hl]
  refine ⟨⟨by simp, by simp, by decide⟩, ⟨by simp, by simp, by decide⟩, rfl, ?_⟩
  intro p q e x hx
  match p, e with
  | [_, _, _, _], e => simp only [List.cons_append, List.nil_append, List.cons.injEq, true_and] at e; rw [← e.2.2.2.2] at hx; simp at hx; rcases hx with rfl | rfl <;> rfl
  | [], e | [_], e | [_, _], e | [_, _, _], e | [_, _, _, _, _], e | [_, _, _, _, _, _], e => simp at e
  | _ :: _ :: _ :: _ :: _ :: _ :: _ :: r, e => simp at e

end QCoro.WsServer
