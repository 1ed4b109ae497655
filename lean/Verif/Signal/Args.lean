import Verif.Util.Basic
/-
Properties C31 and C32: which arguments of a signal an awaiting coroutine receives.

Model of the compile-time machinery of `QCoroSignalBase` (`qcoro/core/qcorosignal.h:39-95`, `:132-157`) and of
`is_qprivatesignal` (`qcoro/core/impl/isqprivatesignal.h:32-82`).  Strings are lists of characters; reading a
`std::string_view` out of bounds is undefined, modelled by `none`.
-/
namespace QCoro.SigArgs

/-! ## C32: `is_qprivatesignal<T>::getValue` -/

/-- `qprivatesignal` (`isqprivatesignal.h:35`). -/
def qps : List Char := ['Q', 'P', 'r', 'i', 'v', 'a', 't', 'e', 'S', 'i', 'g', 'n', 'a', 'l']

/-- `std::string_view::rfind(char)`: scans down from the end; `none` is `npos`.
Used at `qcoro/core/impl/isqprivatesignal.h:58-62`. -/
def rfindBelow (c : Char) (l : List Char) : Nat → Option Nat
  | 0 => none
  | n + 1 => if l[n]? = some c then some n else rfindBelow c l n

/-- `std::string_view::rfind(char)`, used at `qcoro/core/impl/isqprivatesignal.h:58-62`. -/
def rfind (c : Char) (l : List Char) : Option Nat := rfindBelow c l l.length

/-- The loop of `getValue` (`:68-72`), `k` iterations remaining out of `qps.length`, so `pos = qps.length - k + 1`.
`none`: out-of-bounds read (including an index that underflows). -/
def loop (name : List Char) (endPos : Nat) : Nat → Option Bool
  | 0 => some true
  | k + 1 =>
    let pos := qps.length - k
    if pos ≤ endPos ∧ pos ≤ qps.length then
      match name[endPos - pos]?, qps[qps.length - pos]? with
      | some a, some b => if a ≠ b then some false else loop name endPos k
      | _, _ => none
    else none

/-- `getValue` (`:50-75`); `close` is `'>'` for MSVC and `']'` otherwise (`:58-62`). -/
def getValue (close : Char) (name : List Char) : Option Bool :=
  match rfind close name with
  | none => some false
  | some endPos => if endPos < qps.length then some false else loop name endPos qps.length

/-- Specification: the printed name reads `…QPrivateSignal` directly before its last closing bracket.
Specification vocabulary, no counterpart in /repo. -/
def EndsInPrivate (close : Char) (name : List Char) : Prop :=
  ∃ pre post, name = pre ++ qps ++ close :: post ∧ close ∉ post

theorem rfindBelow_some {c : Char} {l : List Char} {n i : Nat} (h : rfindBelow c l n = some i) :
    i < n ∧ l[i]? = some c ∧ ∀ j, i < j → j < n → l[j]? ≠ some c := by
  induction n with
  | zero => cases h
  | succ n ih =>
    unfold rfindBelow at h
    split at h
    · rename_i hc; cases h; exact ⟨by omega, hc, fun j h1 h2 => by omega⟩
    · rename_i hc
      obtain ⟨h1, h2, h3⟩ := ih h
      refine ⟨by omega, h2, fun j hj hj2 => ?_⟩
      by_cases e : j = n
      · subst e; exact hc
      · exact h3 j hj (by omega)

theorem rfindBelow_none {c : Char} {l : List Char} {n : Nat} (h : rfindBelow c l n = none) :
    ∀ j, j < n → l[j]? ≠ some c := by
  induction n with
  | zero => intro j hj; omega
  | succ n ih =>
    unfold rfindBelow at h
    split at h
    · cases h
    · rename_i hc
      intro j hj
      by_cases e : j = n
      · subst e; exact hc
      · exact ih h j (by omega)

/-- `rfind` of a string split at its last bracket. -/
theorem rfind_split (c : Char) (a b : List Char) (hb : c ∉ b) : rfind c (a ++ c :: b) = some a.length := by
  cases h : rfind c (a ++ c :: b) with
  | none =>
    have := rfindBelow_none h a.length (by simp)
    simp at this
  | some i =>
    obtain ⟨h1, h2, h3⟩ := rfindBelow_some h
    by_cases e1 : i < a.length
    · have := h3 a.length e1 (by simp)
      simp at this
    · by_cases e2 : i = a.length
      · rw [e2]
      · exfalso
        rw [List.getElem?_append_right (by omega)] at h2
        obtain ⟨k, hk⟩ : ∃ k, i - a.length = k + 1 := ⟨i - a.length - 1, by omega⟩
        rw [hk, List.getElem?_cons_succ] at h2
        exact hb (List.mem_of_getElem? h2)

theorem rfind_none (c : Char) (l : List Char) : rfind c l = none ↔ c ∉ l := by
  constructor
  · intro h hc
    obtain ⟨i, hi, e⟩ := List.getElem_of_mem hc
    exact rfindBelow_none h i hi (by rw [List.getElem?_eq_getElem hi, e])
  · intro h
    cases e : rfind c l with
    | none => rfl
    | some i => exact absurd (List.mem_of_getElem? (rfindBelow_some e).2.1) h

/-- Every string containing the bracket splits at its last one. -/
theorem split_last (c : Char) (l : List Char) (h : c ∈ l) : ∃ a b, l = a ++ c :: b ∧ c ∉ b := by
  induction l with
  | nil => cases h
  | cons x l ih =>
    by_cases e : c ∈ l
    · obtain ⟨a, b, h1, h2⟩ := ih e
      exact ⟨x :: a, b, by rw [h1]; rfl, h2⟩
    · rcases List.mem_cons.mp h with rfl | h'
      · exact ⟨[], l, rfl, e⟩
      · exact absurd h' e

theorem qps_len : qps.length = 14 := rfl

/-- The loop compares the `k` characters before `endPos - (14 - k)` with the first `k` characters of the pattern. -/
theorem loop_spec (a b : List Char) (k : Nat) (hk : k ≤ 14) (h14 : 14 ≤ a.length) :
    loop (a ++ b) a.length k = some (decide (a.drop (a.length - 14) |>.take k |>.isPrefixOf qps)) := by
  induction k with
  | zero => simp [loop]
  | succ k ih =>
    have ih := ih (by omega)
    unfold loop
    dsimp only
    have hq := qps_len
    rw [if_pos (by omega)]
    have e1 : a.length - (qps.length - k) = a.length - 14 + k := by omega
    have e2 : qps.length - (qps.length - k) = k := by omega
    rw [e1, e2, List.getElem?_append_left (by omega)]
    have hx : a[a.length - 14 + k]? = some (a[a.length - 14 + k]'(by omega)) := List.getElem?_eq_getElem _
    have hy : qps[k]? = some (qps[k]'(by rw [qps_len]; omega)) := List.getElem?_eq_getElem _
    rw [hx, hy]
    dsimp only
    have htake : (a.drop (a.length - 14)).take (k + 1) = (a.drop (a.length - 14)).take k ++ [a[a.length - 14 + k]'(by omega)] := by
      rw [List.take_succ, List.getElem?_drop, hx]; rfl
    have hlen : ((a.drop (a.length - 14)).take k).length = k := by simp; omega
    split
    · rename_i hne
      congr 1
      symm
      rw [decide_eq_false_iff_not]
      intro hp
      rw [htake] at hp
      have hp' := List.isPrefixOf_iff_prefix.mp hp
      obtain ⟨t, ht⟩ := hp'
      apply hne
      have : qps[k]? = some (a[a.length - 14 + k]'(by omega)) := by
        rw [← ht, List.append_assoc, List.getElem?_append_right (by omega), hlen]; simp
      rw [hy] at this
      exact (Option.some.inj this).symm
    · rename_i heq
      have heq : a[a.length - 14 + k]'(by omega) = qps[k]'(by rw [qps_len]; omega) := Classical.byContradiction heq
      rw [ih]
      congr 1
      rw [decide_eq_decide, htake]
      constructor
      · intro hp
        have hp := List.isPrefixOf_iff_prefix.mp hp
        apply List.isPrefixOf_iff_prefix.mpr
        have h1 : (a.drop (a.length - 14)).take k = qps.take k := by
          have := List.prefix_iff_eq_take.mp hp; rw [hlen] at this; exact this
        rw [h1, heq]
        have : qps.take k ++ [qps[k]'(by rw [qps_len]; omega)] = qps.take (k + 1) := by
          rw [List.take_succ, hy]; rfl
        rw [this]; exact List.take_prefix _ _
      · intro hp
        have hp := List.isPrefixOf_iff_prefix.mp hp
        apply List.isPrefixOf_iff_prefix.mpr
        exact (List.prefix_append _ _).trans hp

theorem getValue_split (close : Char) (a post : List Char) (hpost : close ∉ post) :
    getValue close (a ++ close :: post) = some (decide (qps <:+ a)) := by
  unfold getValue
  rw [rfind_split close a post hpost]
  dsimp only
  split
  · rename_i h
    congr 1; symm; rw [decide_eq_false_iff_not]
    intro hs; have := hs.length_le; omega
  · rename_i h
    rw [qps_len] at h ⊢
    rw [loop_spec a _ 14 (by omega) (by omega)]
    congr 1
    rw [decide_eq_decide]
    have hlen : (a.drop (a.length - 14)).length = 14 := by simp; omega
    rw [List.take_of_length_le (by omega), List.isPrefixOf_iff_prefix]
    constructor
    · intro hp
      have : a.drop (a.length - 14) = qps := hp.eq_of_length (by rw [hlen]; rfl)
      rw [← this]; exact List.drop_suffix _ _
    · rintro ⟨t, rfl⟩
      have e : (t ++ qps).length - 14 = t.length := by rw [List.length_append, qps_len]; omega
      rw [e, List.drop_left]; exact List.prefix_refl _

/-- C32: for every printed function name, the check reads no character out of bounds, and it answers yes exactly if the
name reads `QPrivateSignal` directly before its last closing bracket. -/
theorem C32_exact (close : Char) (name : List Char) :
    ∃ b, getValue close name = some b ∧ (b = true ↔ EndsInPrivate close name) := by
  by_cases h : close ∈ name
  · obtain ⟨a, post, rfl, hp⟩ := split_last close name h
    refine ⟨_, getValue_split close a post hp, ?_⟩
    rw [decide_eq_true_iff]
    constructor
    · rintro ⟨pre, rfl⟩; exact ⟨pre, post, by simp, hp⟩
    · rintro ⟨pre, post', he, hp'⟩
      have h1 := rfind_split close a post hp
      rw [he, rfind_split close (pre ++ qps) post' hp'] at h1
      have hl : (pre ++ qps).length = a.length := Option.some.inj h1
      exact ⟨pre, (List.append_inj_left he hl.symm).symm⟩
  · refine ⟨false, ?_, ?_⟩
    · unfold getValue; rw [(rfind_none close name).mpr h]
    · simp only [Bool.false_eq_true, false_iff]
      rintro ⟨pre, post, rfl, _⟩
      exact h (by simp)

/-- C32, in terms of the type: with the text the compiler prints around the type's name `ty` (Clang `…[T = ty]`, GCC
`…[with T = ty]`, MSVC `…<ty>::functionName(void)`; in each case the character before the name is a blank or `<`, and no
closing bracket follows the one that ends the name), the type is taken for a private signal exactly if its own name
ends in `QPrivateSignal`. -/
theorem C32_type (close d : Char) (pre ty post : List Char) (hd : d ∉ qps) (hpost : close ∉ post) :
    getValue close (pre ++ [d] ++ ty ++ close :: post) = some (decide (qps <:+ ty)) := by
  rw [getValue_split close _ post hpost]
  congr 1
  rw [decide_eq_decide]
  constructor
  · intro h
    rcases List.suffix_or_suffix_of_suffix h (List.suffix_append (pre ++ [d]) ty) with h1 | h1
    · exact h1
    · -- `ty` is a proper end of the pattern: then `d` would be a character of it
      by_cases e : ty = qps
      · rw [e]; exact List.suffix_refl _
      · exfalso
        obtain ⟨t, ht⟩ := h1
        obtain ⟨u, hu⟩ := h
        have hu' : (u ++ t) ++ ty = (pre ++ [d]) ++ ty := by rw [List.append_assoc, ht]; exact hu
        have hu2 := List.append_cancel_right hu'
        have hne : t ≠ [] := by rintro rfl; exact e (by simpa using ht)
        have hm : d ∈ t := by
          have hl := congrArg List.getLast? hu2
          rw [List.getLast?_append, List.getLast?_append] at hl
          cases hg : t.getLast? with
          | none => simp at hg; exact absurd hg hne
          | some x =>
            rw [hg] at hl; simp at hl
            rw [← hl]; exact List.mem_of_getLast? hg
        exact hd (by rw [← ht]; simp [hm])
  · intro h; exact h.trans (List.suffix_append _ _)

/-- The hypotheses are met by all three compilers' formats, and decide real names correctly. -/
example : getValue ']' "static auto QCoro::detail::is_qprivatesignal<Foo>::functionName() [T = QTimer::QPrivateSignal]".toList = some true := by decide
example : getValue ']' "static consteval auto QCoro::detail::is_qprivatesignal<T>::functionName() [with T = int]".toList = some false := by decide
example : getValue '>' "const char *__cdecl QCoro::detail::is_qprivatesignal<struct QTimer::QPrivateSignal>::functionName(void)".toList = some true := by decide
example : getValue ']' "]".toList = some false := by decide
example : (' ' ∉ qps) ∧ ('<' ∉ qps) := by decide

/-- Limit of the check (the header's comment speaks of `::QPrivateSignal`): the qualifier is not looked at, so a user
type whose own name merely ends in those letters is also dropped from a signal's last argument. -/
theorem C32_lookalike : getValue ']' "static auto QCoro::detail::is_qprivatesignal<MyQPrivateSignal>::functionName() [T = MyQPrivateSignal]".toList = some true := by
  decide

/-! ## C31: the arguments -/

/-- An argument type after `remove_cvref_t`; `priv` is `is_qprivatesignal_v` of it. (`qcoro/core/qcorosignal.h:49-62`). -/
structure Ty where
  id : Nat
  priv : Bool
deriving DecidableEq, Repr

/-- A value of such a type. (`qcoro/core/qcorosignal.h:137-157`). -/
structure Arg where
  ty : Ty
  val : Nat
deriving DecidableEq, Repr

/-- `filtered_tuple<Tuple, Args...>` (`qcorosignal.h:49-62`), with `concat_tuple` (`:44-47`) appending at the end. -/
def filteredTuple : List Ty → List Ty → List Ty
  | tuple, [] => tuple
  | tuple, a :: args => if a.priv then filteredTuple tuple args else filteredTuple (tuple ++ [a]) args

/-- `result_tuple` of a pointer to member function (`:72-75`, `:90`). -/
def resultTuple (sig : List Ty) : List Ty := filteredTuple [] sig

/-- `result_type_from_tuple` (`:77-88`): a one-element tuple is unwrapped. -/
inductive Shape | one (t : Ty) | tuple (ts : List Ty)
deriving DecidableEq, Repr
/-- `result_type_from_tuple` (`qcoro/core/qcorosignal.h:77-88`). -/
def resultShape : List Ty → Shape
  | [t] => .one t
  | ts => .tuple ts

/-- `storeResult` (`:137-157`): drops the last argument if it is a private signal, and hands the rest to the callback. -/
def storeResult (args : List Arg) : List Arg :=
  match args.getLast? with
  | none => []
  | some last => if last.ty.priv then args.take (args.length - 1) else args

/-- The value of the awaited `optional` after `emplace(args...)` (`:225-227`, `:317-319`). -/
inductive Result | one (a : Arg) | tuple (as : List Arg)
deriving DecidableEq, Repr

/-- `emplace` compiles only if the arguments handed to it are those of the result type; `none`: does not compile.
(`qcoro/core/qcorosignal.h:225-227`, `:317-319`). -/
def emplace (sh : Shape) (args : List Arg) : Option Result :=
  match sh, args with
  | .one t, [a] => if a.ty = t then some (.one a) else none
  | .one _, _ => none
  | .tuple ts, as => if as.map (·.ty) = ts then some (.tuple as) else none

/-- What a wait for a signal with these arguments yields. Composition of the above (`qcoro/core/qcorosignal.h:219-232`). -/
def awaited (args : List Arg) : Option Result := emplace (resultShape (resultTuple (args.map (·.ty)))) (storeResult args)

/-! Specification -/

/-- The public arguments of an emission, in order. Specification vocabulary, no counterpart in /repo. -/
def publicArgs (args : List Arg) : List Arg := args.filter (fun a => !a.ty.priv)

/-- moc only accepts `QPrivateSignal` as the last argument of a signal. Specification vocabulary, no counterpart in /repo. -/
def WellFormed (args : List Arg) : Prop := ∀ a ∈ args.take (args.length - 1), a.ty.priv = false

theorem filteredTuple_eq (t l : List Ty) : filteredTuple t l = t ++ l.filter (fun a => !a.priv) := by
  induction l generalizing t with
  | nil => simp [filteredTuple]
  | cons a l ih =>
    unfold filteredTuple
    split
    · rename_i h; rw [ih, List.filter_cons]; simp [h]
    · rename_i h; rw [ih, List.filter_cons]; simp [h]

theorem resultTuple_eq (args : List Arg) : resultTuple (args.map (·.ty)) = (publicArgs args).map (·.ty) := by
  simp only [resultTuple, filteredTuple_eq, List.nil_append, publicArgs, List.filter_map]
  rfl

theorem storeResult_public (args : List Arg) (h : WellFormed args) : storeResult args = publicArgs args := by
  induction args using snocInd with
  | nil => rfl
  | snoc l a _ =>
    have hl : ∀ x ∈ l, (!x.ty.priv) = true := by
      intro x hx; have := h x (by simpa using hx); simp [this]
    have hf : l.filter (fun a => !a.ty.priv) = l := List.filter_eq_self.mpr hl
    unfold storeResult publicArgs
    simp only [List.getLast?_append, List.getLast?_singleton, Option.some_or, List.filter_append, hf]
    by_cases hp : a.ty.priv <;> simp [hp]

/-- C31: for every signal moc accepts, the awaited value is made of exactly the public arguments, in order: unwrapped
if there is one, a tuple otherwise (empty if there are none). -/
theorem C31_public_args (args : List Arg) (h : WellFormed args) :
    awaited args = some (match publicArgs args with | [a] => .one a | as => .tuple as) := by
  unfold awaited
  rw [resultTuple_eq, storeResult_public args h]
  generalize publicArgs args = l
  match l with
  | [] => rfl
  | [a] => simp [resultShape, emplace]
  | a :: b :: l => simp [resultShape, emplace]

theorem storeResult_length (args : List Arg) :
    storeResult args = args ∨ ∃ l a, args = l ++ [a] ∧ a.ty.priv = true ∧ storeResult args = l := by
  induction args using snocInd with
  | nil => exact .inl rfl
  | snoc l a _ =>
    unfold storeResult
    simp only [List.getLast?_append, List.getLast?_singleton, Option.some_or]
    by_cases hp : a.ty.priv
    · right; exact ⟨l, a, rfl, hp, by simp [hp]⟩
    · left; simp [hp]

/-- Specification vocabulary, no counterpart in /repo. -/
def Shape.arity : Shape → Nat
  | .one _ => 1
  | .tuple ts => ts.length

theorem emplace_length (sh : Shape) (as : List Arg) (r : Result) (h : emplace sh as = some r) :
    sh.arity = as.length := by
  cases sh with
  | one t =>
    match as, h with
    | [a], _ => rfl
  | tuple ts =>
    unfold emplace at h
    dsimp only at h
    split at h
    · rename_i he; rw [← he]; simp [Shape.arity]
    · cases h

/-- Conversely a signal with a private-signal argument anywhere but last is rejected at compile time: no wait ever
yields anything but the public arguments. -/
theorem C31_only_public (args : List Arg) (r : Result) (h : awaited args = some r) :
    r = (match publicArgs args with | [a] => .one a | as => .tuple as) := by
  have hwf : WellFormed args := by
    unfold awaited at h
    rw [resultTuple_eq] at h
    have hlen := emplace_length _ _ _ h
    have hs : (resultShape ((publicArgs args).map (·.ty))).arity = (publicArgs args).length := by
      generalize publicArgs args = l
      match l with
      | [] => rfl
      | [a] => rfl
      | a :: b :: l => simp [resultShape, Shape.arity]
    rw [hs] at hlen
    have hall : ∀ l : List Arg, (publicArgs l).length = l.length → ∀ x ∈ l, x.ty.priv = false := by
      intro l hl x hx
      have := (List.filter_eq_self (p := fun a : Arg => !a.ty.priv)).mp ((List.filter_sublist).eq_of_length hl) x hx
      simpa using this
    rcases storeResult_length args with e | ⟨l, a, rfl, hp, e⟩
    · rw [e] at hlen
      intro x hx; exact hall args hlen x (List.take_subset _ _ hx)
    · rw [e] at hlen
      have : publicArgs (l ++ [a]) = publicArgs l := by simp [publicArgs, hp]
      rw [this] at hlen
      intro x hx; exact hall l hlen x (by simpa using hx)
  rw [C31_public_args args hwf] at h
  exact (Option.some.inj h).symm

/-- `QProcess::finished(int, ExitStatus, QPrivateSignal)` and `QTimer::timeout(QPrivateSignal)`. -/
example : awaited [⟨⟨1, false⟩, 0⟩, ⟨⟨2, false⟩, 1⟩, ⟨⟨9, true⟩, 0⟩] = some (.tuple [⟨⟨1, false⟩, 0⟩, ⟨⟨2, false⟩, 1⟩]) := by decide
example : awaited [⟨⟨9, true⟩, 0⟩] = some (.tuple []) := by decide
example : awaited [⟨⟨1, false⟩, 5⟩, ⟨⟨9, true⟩, 0⟩] = some (.one ⟨⟨1, false⟩, 5⟩) := by decide
example : WellFormed [⟨⟨1, false⟩, 5⟩, ⟨⟨9, true⟩, 0⟩] := by intro a ha; simp at ha; subst ha; rfl
example : awaited [⟨⟨9, true⟩, 0⟩, ⟨⟨1, false⟩, 5⟩] = none := by decide

end QCoro.SigArgs
