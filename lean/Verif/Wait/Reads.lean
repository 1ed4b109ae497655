import Verif.Wait.Props
/-
Property C35: readAll / read / readLine of a device.
-/
set_option linter.unusedSimpArgs false
namespace QCoro.Wait

theorem reads_now (f : Dev → List UInt8 × Dev) (d : Dev) (t : Int) :
    readWith f none = .ret .nullDeref none ∧
    (d.readable = false → readWith f (some d) = .ret (.ok []) (some d)) ∧
    (d.readable = true → d.buf ≠ [] → readWith f (some d) = .ret (.ok (f d).1) (some (f d).2)) ∧
    (d.readable = true → ¬ waitsRead d → readWith f (some d) = .ret (.ok (f d).1) (some (f d).2)) := by
  refine ⟨rfl, ?_, ?_, ?_⟩
  · intro h; unfold readWith waitForReadyRead; simp [h, afterReady]
  · intro h hb
    have : d.buf.length > 0 := List.length_pos_iff.mpr hb
    unfold readWith waitForReadyRead; simp [h, this, afterReady]
  · intro h hw
    have hi := C38_immediate d t []
    unfold readWith
    by_cases hb : d.buf = []
    · have hr := hi.2.2.2 h hw
      unfold waitForReadyRead
      simp only [h, hb, Bool.true_eq_false, if_false, List.length_nil, gt_iff_lt, Nat.lt_irrefl]
      unfold waitsRead at hw
      cases hk : d.kind with
      | plain => simp [h, hb, hk] at hw
      | tcp s => simp [h, hb, hk] at hw; simp [readImpl, hw, afterReady]
      | loc s => simp [h, hb, hk] at hw; simp [readImpl, hw, afterReady]
      | reply b => simp [h, hb, hk] at hw; simp [readImpl, hw, afterReady]
    · have : d.buf.length > 0 := List.length_pos_iff.mpr hb
      unfold waitForReadyRead; simp [h, this, afterReady]

/-- Without suspending, whatever happens afterwards: null device → undefined behaviour; not readable (e.g. closed) → nothing is read; data
available, or an unconnected socket or finished reply → reads at once. -/
theorem C35_immediate (f : Dev → List UInt8 × Dev) (d : Dev) (t : Int) (ops : List (Op DSig Dev)) :
    (readWith f none).out t d ops = some .nullDeref ∧
    (d.readable = false → (readWith f (some d)).out t d ops = some (.ok []) ∧ (readWith f (some d)).dev t d [] = some d) ∧
    (d.readable = true → d.buf ≠ [] ∨ ¬ waitsRead d →
      (readWith f (some d)).out t d ops = some (.ok (f d).1) ∧ (readWith f (some d)).dev t d [] = some (f d).2) := by
  obtain ⟨h1, h2, h3, h4⟩ := reads_now f d t
  refine ⟨by rw [h1]; rfl, ?_, ?_⟩
  · intro h; rw [h2 h]; exact ⟨rfl, rfl⟩
  · rintro h (hb | hw)
    · rw [h3 h hb]; exact ⟨rfl, rfl⟩
    · rw [h4 h hw]; exact ⟨rfl, rfl⟩

theorem readWith_wait (f : Dev → List UInt8 × Dev) (d : Dev) (hw : waitsRead d) :
    readWith f (some d) = .wait (readHelper d.kind) (fun r dv => afterReady f (.ok r.isSome, dv)) := by
  obtain ⟨h1, h2, h3⟩ := hw
  unfold readWith waitForReadyRead
  dsimp only
  rw [if_neg (by simp [h1]), if_neg (by simp [h2])]
  have hi : readImpl d.kind = .inr (readHelper d.kind) := by
    cases hk : d.kind <;> rw [hk] at h3 <;> simp_all [readImpl]
  rw [hi]

/-- Otherwise, the step in which it returns: a signal that ends the wait came (readyRead, close, …) and what is read is what the
device then has, or, if the device was destroyed before the event loop delivered the signal, the null device is dereferenced; or
the timeout has elapsed, nothing is read and the device is left alone. -/
theorem C35_waits (f : Dev → List UInt8 × Dev) (d : Dev) (hw : waitsRead d) (t : Int) (ops : List (Op DSig Dev)) (op : Op DSig Dev) (r : Res (List UInt8))
    (h0 : (readWith f (some d)).out t d ops = none) (h1 : (readWith f (some d)).out t d (ops ++ [op]) = some r) :
    ((∃ x ∈ heard ops, endsRead d.kind x) ∧ op = .deliver ∧ (∀ d', device (some d) ops = some d' →
        r = .ok (f d').1 ∧ (readWith f (some d)).dev t d (ops ++ [op]) = some (f d').2) ∧ (device (some d) ops = none → r = .nullDeref)) ∨
    (r = .ok [] ∧ 0 ≤ t ∧ t ≤ elapsed ops ∧ (readWith f (some d)).dev t d (ops ++ [op]) = device (some d) ops) := by
  rw [readWith_wait f d hw] at h0 h1 ⊢
  obtain ⟨v, e1, e2, e3⟩ := returns _ _ t d ops op h0 h1
  cases v with
  | some u =>
    left
    obtain ⟨hop, ⟨y, hy, c, hc, e⟩, _⟩ := e3
    refine ⟨⟨y, hy, (readHelper_ends d.kind y).mp ⟨c, hc, by simp [e]⟩⟩, hop, ?_, ?_⟩
    · intro d' hd'
      rw [hd'] at e1 e2
      exact ⟨e1, e2⟩
    · intro hd'
      rw [hd'] at e1
      exact e1
  | none =>
    right
    refine ⟨?_, e3.1, e3.2.1, ?_⟩
    · rw [e1]; cases device (some d) ops <;> rfl
    · rw [show (Call.wait (readHelper d.kind) _).dev t d (ops ++ [op]) = _ from e2]
      cases device (some d) ops <;> rfl

/-- A read returns once. -/
theorem C35_once (f : Dev → List UInt8 × Dev) (d : Dev) (t : Int) (ops ops' : List (Op DSig Dev)) (r : Res (List UInt8))
    (hr : (readWith f (some d)).out t d ops = some r) : (readWith f (some d)).out t d (ops ++ ops') = some r := by
  revert hr
  cases readWith f (some d) with
  | ret r' d => exact id
  | wait hh k => intro hr; show (run hh k t d _).out = _; rw [returned_stays hh k t d ops ops' hr]; exact hr

/-- Once a signal that ends the wait came, it returns as soon as the event loop delivers it. -/
theorem C35_complete (f : Dev → List UInt8 × Dev) (d : Dev) (hw : waitsRead d) (t : Int) (ops : List (Op DSig Dev)) (x : DSig) (hx : x ∈ heard ops) (he : endsRead d.kind x) :
    ∃ n m, ((readWith f (some d)).out t d (ops ++ List.replicate n .handler ++ List.replicate m .deliver)).isSome = true := by
  rw [readWith_wait f d hw]
  exact completes _ _ t d ops hx (hit_ne_none.mpr ((readHelper_ends d.kind x).mpr he))

/-- The timeout ends it with nothing. -/
theorem C35_timeout (f : Dev → List UInt8 × Dev) (d : Dev) (hw : waitsRead d) (t : Int) (ops : List (Op DSig Dev))
    (h0 : (readWith f (some d)).out t d ops = none) (ht : 0 ≤ t) (he : t ≤ elapsed ops) :
    (readWith f (some d)).out t d (ops ++ [.fire]) = some (.ok []) := by
  rw [readWith_wait f d hw] at h0 ⊢
  show (run _ _ t d _).out = _
  rw [(times_out (readHelper d.kind) _ t d ops h0 ht he (by intro h; cases hk : d.kind <;> rw [hk] at h <;> cases h)).1]
  cases device (some d) ops <;> rfl

/-- No signal that ends the wait and no timeout: it keeps waiting. -/
theorem C35_pending (f : Dev → List UInt8 × Dev) (d : Dev) (hw : waitsRead d) (t : Int) (ops : List (Op DSig Dev))
    (hx : ∀ x ∈ heard ops, ¬ endsRead d.kind x) (ht : t < 0 ∨ (elapsed ops : Int) < t) : (readWith f (some d)).out t d ops = none := by
  rw [readWith_wait f d hw]
  refine pending _ _ t d ops ?_ ht
  intro y hy c hc
  cases hr : c.react y with
  | none => rfl
  | some u => exact absurd ((readHelper_ends d.kind y).mp ⟨c, hc, by simp [hr]⟩) (hx y hy)

/-- Found: the device is destroyed after readyRead but before the result is delivered: the null device is dereferenced. -/
theorem C35_destroyed_null_deref : ∃ ops : List (Op DSig Dev), (readAll (some {})).out (-1) {} ops = some .nullDeref :=
  ⟨[.sig .readyRead false, .gone, .deliver], by decide⟩

/-! #### What is read -/

/-- The three reading functions. -/
inductive Reader : (Dev → List UInt8 × Dev) → Prop
  | all : Reader Dev.readAll
  | upTo (n : Nat) : Reader (Dev.read n)
  | line (n : Nat) : Reader (Dev.readLine n)

theorem reader_split {f : Dev → List UInt8 × Dev} (hf : Reader f) (d : Dev) : (f d).1 ++ (f d).2.buf = d.buf := by
  cases hf with
  | all => simp [Dev.readAll]
  | upTo n => simp [Dev.read]
  | line n => simp [Dev.readLine]

/-- readAll leaves nothing; read(n) returns at most n bytes, and all there are if fewer. -/
theorem C35_amounts (d : Dev) (n : Nat) : (Dev.readAll d).2.buf = [] ∧ (Dev.readAll d).1 = d.buf ∧ (Dev.read n d).1.length = min n d.buf.length := by
  simp [Dev.readAll, Dev.read]

/-- `l` is the first line of `b`, newline included, cut off after `n` bytes if `n` is not 0. -/
def FirstLine (n : Nat) (b l : List UInt8) : Prop :=
  ∃ rest, b = l ++ rest ∧ 10 ∉ l.dropLast ∧ (n = 0 ∨ l.length ≤ n) ∧ (l.getLast? = some 10 ∨ rest = [] ∨ (n ≠ 0 ∧ l.length = n))

theorem readLine_firstLine (n : Nat) (d : Dev) : FirstLine n d.buf (Dev.readLine n d).1 := by
  have key : ∀ (b : List UInt8) (m : Nat), m ≤ lineLen b → 10 ∉ (b.take m).dropLast := by
    intro b m hm hx
    obtain ⟨i, hi, e⟩ := List.mem_iff_getElem.1 hx
    simp only [List.length_dropLast, List.length_take] at hi
    simp only [List.getElem_dropLast, List.getElem_take] at e
    have hlen : lineLen b ≤ b.findIdx (· == 10) + 1 := by unfold lineLen; dsimp only; split <;> omega
    have := List.not_of_lt_findIdx (p := (· == 10)) (xs := b) (i := i) (by omega)
    simp [e] at this
  have last : ∀ b : List UInt8, (b.take (lineLen b)).getLast? = some 10 ∨ b.drop (lineLen b) = [] := by
    intro b
    unfold lineLen; dsimp only
    split
    · rename_i h
      left
      rw [List.getLast?_eq_getElem?, List.length_take, Nat.min_eq_left (by omega), Nat.add_sub_cancel, List.getElem?_take_of_lt (by omega),
        List.getElem?_eq_getElem h]
      simpa using List.findIdx_getElem (w := h)
    · right; exact List.drop_eq_nil_of_le (by omega)
  refine ⟨d.buf.drop (if n = 0 then lineLen d.buf else min n (lineLen d.buf)), by simp [Dev.readLine], ?_, ?_, ?_⟩
  · simp only [Dev.readLine]; split
    · exact key _ _ (Nat.le_refl _)
    · exact key _ _ (Nat.min_le_right _ _)
  · by_cases hn : n = 0
    · exact .inl hn
    · right; simp only [Dev.readLine, if_neg hn, List.length_take]; omega
  · by_cases hn : n = 0
    · simp only [Dev.readLine, if_pos hn]
      exact (last d.buf).imp id .inl
    · simp only [Dev.readLine, if_neg hn]
      by_cases hm : n ≤ lineLen d.buf
      · right; right; refine ⟨hn, ?_⟩
        have hl : lineLen d.buf ≤ d.buf.length := by
          have := List.findIdx_le_length (p := (· == (10 : UInt8))) (xs := d.buf)
          unfold lineLen; dsimp only; split <;> omega
        simp only [List.length_take]; omega
      · rw [Nat.min_eq_right (by omega)]
        exact (last d.buf).imp id .inl

/-- Specification of a reading call: from data `b` it takes `bytes` with `Spec b bytes`, and nothing else, at once if there is data, otherwise
when the wait ends, unless that is by the timeout. -/
structure Takes (call : Option Dev → Call Bool Dev (List UInt8)) (Spec : List UInt8 → List UInt8 → Prop) : Prop where
  now : ∀ d : Dev, d.readable = true → d.buf ≠ [] → ∃ bytes rest, Spec d.buf bytes ∧ d.buf = bytes ++ rest ∧ call (some d) = .ret (.ok bytes) (some { d with buf := rest })
  later : ∀ (d : Dev) (t : Int) ops op bytes d', waitsRead d → (call (some d)).out t d ops = none → (call (some d)).out t d (ops ++ [op]) = some (.ok bytes) →
    device (some d) ops = some d' →
    (Spec d'.buf bytes ∧ ∃ rest, d'.buf = bytes ++ rest ∧ (call (some d)).dev t d (ops ++ [op]) = some { d' with buf := rest }) ∨
    (bytes = [] ∧ 0 ≤ t ∧ t ≤ elapsed ops ∧ (call (some d)).dev t d (ops ++ [op]) = some d')

theorem takes_of (f : Dev → List UInt8 × Dev) (Spec : List UInt8 → List UInt8 → Prop)
    (hf : ∀ d, Spec d.buf (f d).1 ∧ ∃ rest, d.buf = (f d).1 ++ rest ∧ (f d).2 = { d with buf := rest }) : Takes (readWith f) Spec := by
  constructor
  · intro d h1 h2
    obtain ⟨a, rest, b, c⟩ := hf d
    exact ⟨_, rest, a, b, by rw [(reads_now f d 0).2.2.1 h1 h2, c]⟩
  · intro d t ops op bytes d' hw h0 h1 hd
    rcases C35_waits f d hw t ops op _ h0 h1 with ⟨_, _, h⟩ | ⟨e, h2, h3, h4⟩
    · obtain ⟨e1, e2⟩ := h.1 d' hd
      cases e1
      obtain ⟨a, rest, b, c⟩ := hf d'
      exact .inl ⟨a, rest, b, by rw [e2, c]⟩
    · cases e
      exact .inr ⟨rfl, h2, h3, by rw [h4, hd]⟩

/-- readAll() takes everything there is. -/
theorem C35_readAll_bytes : Takes readAll (fun b bytes => bytes = b) :=
  takes_of _ _ fun d => ⟨rfl, [], by simp [Dev.readAll], rfl⟩
/-- read(n) takes the first n bytes, or all there are if fewer. -/
theorem C35_read_bytes (n : Nat) : Takes (read n) (fun b bytes => bytes.length = min n b.length) :=
  takes_of _ _ fun d => ⟨by simp [Dev.read], d.buf.drop n, by simp [Dev.read], rfl⟩
/-- readLine(n) takes the first line. -/
theorem C35_readLine_bytes (n : Nat) : Takes (readLine n) (FirstLine n) :=
  takes_of _ _ fun d => ⟨readLine_firstLine n d, d.buf.drop (if n = 0 then lineLen d.buf else min n (lineLen d.buf)), by simp [Dev.readLine], rfl⟩

example : (readLine 0 (some { buf := [65, 10, 66] })).dev (-1) { buf := [65, 10, 66] } [] = some { buf := [66] } := by decide

/-- readLine returns at most one line and at most n bytes. -/
theorem C35_line (d : Dev) (n : Nat) : (0 < n → (Dev.readLine n d).1.length ≤ n) ∧
    (∀ i, i + 1 < (Dev.readLine n d).1.length → (Dev.readLine n d).1[i]? ≠ some 10) := by
  have hlen : lineLen d.buf ≤ d.buf.findIdx (· == 10) + 1 := by unfold lineLen; dsimp only; split <;> omega
  refine ⟨?_, ?_⟩
  · intro hn
    simp only [Dev.readLine, List.length_take]
    rw [if_neg (by omega)]; omega
  · intro i hi e
    simp only [Dev.readLine, List.length_take] at hi e
    have hi2 : i < d.buf.findIdx (· == 10) := by
      have : i + 1 < lineLen d.buf := by
        by_cases hn : n = 0
        · rw [if_pos hn] at hi; omega
        · rw [if_neg hn] at hi; omega
      omega
    have hb : i < d.buf.length := Nat.lt_of_lt_of_le hi2 (List.findIdx_le_length)
    have e2 : d.buf[i]? = some 10 := by
      rw [List.getElem?_take] at e
      by_cases hlt : i < (if n = 0 then lineLen d.buf else min n (lineLen d.buf))
      · rwa [if_pos hlt] at e
      · rw [if_neg hlt] at e; cases e
    rw [List.getElem?_eq_getElem hb] at e2
    have := List.not_of_lt_findIdx hi2
    simp at this
    simp at e2
    exact this e2

/-- While a call waits the device only receives `added` bytes more, in this order, and is not destroyed. -/
inductive Grows : Dev → List (Op DSig Dev) → List UInt8 → Prop
  | nil (d) : Grows d [] []
  | dev (d d' : Dev) (b : List UInt8) (l a) : d'.buf = d.buf ++ b → Grows d' l a → Grows d (.dev d' :: l) (b ++ a)
  | other (d : Dev) (op : Op DSig Dev) (l a) : (∀ d', op ≠ .dev d') → op ≠ .gone → Grows d l a → Grows d (op :: l) a

theorem Grows.device {d : Dev} {ops : List (Op DSig Dev)} {a : List UInt8} (h : Grows d ops a) : ∃ d', device (some d) ops = some d' ∧ d'.buf = d.buf ++ a := by
  induction h with
  | nil d => exact ⟨d, rfl, by simp⟩
  | dev d d' b l a hb _ ih =>
    obtain ⟨e, h1, h2⟩ := ih
    exact ⟨e, h1, by rw [h2, hb]; simp⟩
  | other d op l a h1 h2 _ ih =>
    obtain ⟨e, g1, g2⟩ := ih
    refine ⟨e, ?_, g2⟩
    cases op with
    | dev d' => exact absurd rfl (h1 d')
    | gone => exact absurd rfl h2
    | _ => exact g1

/-- A history of reading calls on one device: `arrived` is everything that arrived, `got` everything the calls returned, in order. -/
inductive Session : Dev → List UInt8 → List UInt8 → Dev → Prop
  | start (d) : Session d [] [] d
  | idle {d0 d d' arrived got} (b : List UInt8) : Session d0 arrived got d → d'.buf = d.buf ++ b → Session d0 (arrived ++ b) got d'
  /-- a call that returns without suspending -/
  | now {d0 d d' arrived got f} (t : Int) (bytes : List UInt8) (r : Option Dev) : Session d0 arrived got d → Reader f → readWith f (some d) = .ret (.ok bytes) r →
      r = some d' → Session d0 arrived (got ++ bytes) d'
  /-- a call that suspends and returns `bytes` in the step `op` after the events `ops`, during which `added` arrived -/
  | later {d0 d d' arrived got f} (t : Int) (ops op added bytes) : Session d0 arrived got d → Reader f → waitsRead d → Grows d ops added →
      (readWith f (some d)).out t d ops = none → (readWith f (some d)).out t d (ops ++ [op]) = some (.ok bytes) →
      (readWith f (some d)).dev t d (ops ++ [op]) = some d' → Session d0 (arrived ++ added) (got ++ bytes) d'

/-- No byte is lost, duplicated or reordered, whatever the schedule: what was returned, followed by what is still there, is what
was there at the start followed by what arrived. -/
theorem C35_no_loss {d0 d : Dev} {arrived got : List UInt8} (h : Session d0 arrived got d) : got ++ d.buf = d0.buf ++ arrived := by
  induction h with
  | start => simp
  | idle b _ hb ih => rw [hb, ← List.append_assoc, ih]; simp
  | @now d d' arrived got f t bytes r _ hf hr hd ih =>
    have key : bytes ++ d'.buf = d.buf := by
      by_cases hre : d.readable = true
      · by_cases hw : waitsRead d
        · rw [readWith_wait f d hw] at hr; cases hr
        · rw [(reads_now f d t).2.2.2 hre hw] at hr
          cases hr; cases hd
          exact reader_split hf d
      · have hre : d.readable = false := by simpa using hre
        rw [(reads_now f d t).2.1 hre] at hr
        cases hr; cases hd; simp
    rw [List.append_assoc, key, ih]
  | @later d d' arrived got f t ops op added bytes _ hf hw hg h0 h1 hd ih =>
    obtain ⟨e, g1, g2⟩ := hg.device
    have key : bytes ++ d'.buf = d.buf ++ added := by
      rcases C35_waits f d hw t ops op _ h0 h1 with ⟨_, _, h⟩ | ⟨h2, _, _, h3⟩
      · obtain ⟨a, b⟩ := h.1 e g1
        rw [hd] at b
        cases a; cases b
        rw [reader_split hf e, g2]
      · rw [hd, g1] at h3
        cases h2; cases h3
        simp [g2]
    rw [List.append_assoc, key, ← List.append_assoc, ih, List.append_assoc]

/-- Non-vacuity: three bytes there, two arrive later; read(2), then readAll twice. -/
example : ∃ d, Session { buf := [1, 2, 3] } ([] ++ [7, 8]) ((([] ++ [1, 2]) ++ [3]) ++ [7, 8]) d := by
  refine ⟨{}, ?_⟩
  refine .later (d := {}) (f := Dev.readAll) 100 [.time 5, .dev { buf := [7] }, .sig .readyRead false, .dev { buf := [7, 8] }] .deliver [7, 8] [7, 8] ?_ .all (by simp [waitsRead]) ?_ (by decide) (by decide) (by decide)
  · refine .now (d := { buf := [3] }) (f := Dev.readAll) 0 [3] (some {}) ?_ .all (by rfl) rfl
    exact .now (d := { buf := [1, 2, 3] }) (f := Dev.read 2) 0 [1, 2] (some { buf := [3] }) (.start _) (.upTo 2) (by rfl) rfl
  · exact .other _ _ _ _ (by simp) (by simp) (.dev _ _ [7] _ [8] rfl (.other _ _ _ _ (by simp) (by simp) (.dev _ _ [8] _ [] rfl (.nil _))))

end QCoro.Wait
