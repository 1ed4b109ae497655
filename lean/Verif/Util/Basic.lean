/-
Small helpers shared by the models: finite-automaton specifications over event logs, functional update,
reverse induction on lists.  Nothing here models code.
-/
namespace QCoro

/-- Functional update. -/
def upd {α : Type} (f : Nat → α) (i : Nat) (x : α) : Nat → α := fun j => if j = i then x else f j

@[simp] theorem upd_same {α : Type} (f : Nat → α) (i : Nat) (x : α) : upd f i x i = x := by simp [upd]
theorem upd_other {α : Type} (f : Nat → α) {i j : Nat} (x : α) (h : j ≠ i) : upd f i x j = f j := by simp [upd, h]
theorem upd_apply {α : Type} (f : Nat → α) (i j : Nat) (x : α) : upd f i x j = if j = i then x else f j := rfl

/-- A log is legal for an abstract machine (`next` computes the abstract state reached after each event, `ok` tells
which events may happen in it) if every event was allowed at the moment it happened. -/
def Legal {S E : Type} (next : S → E → S) (ok : S → E → Prop) (s0 : S) (log : List E) : Prop :=
  ∀ pre e post, log = pre ++ e :: post → ok (pre.foldl next s0) e

theorem Legal.nil {S E : Type} {next : S → E → S} {ok : S → E → Prop} {s0 : S} : Legal next ok s0 [] := by
  intro pre e post h; simp at h

theorem Legal.snoc {S E : Type} {next : S → E → S} {ok : S → E → Prop} {s0 : S} {log : List E} {e : E}
    (h : Legal next ok s0 log) (he : ok (log.foldl next s0) e) : Legal next ok s0 (log ++ [e]) := by
  intro pre e' post hp
  rcases List.append_eq_append_iff.mp hp with ⟨as, h1, h2⟩ | ⟨bs, h1, h2⟩
  · cases as with
    | nil => simp at h2 h1; obtain ⟨rfl, _⟩ := h2; subst h1; exact he
    | cons a as => simp at h2
  · cases bs with
    | nil => simp at h2 h1; obtain ⟨rfl, _⟩ := h2; subst h1; exact he
    | cons a bs => simp at h2; obtain ⟨rfl, _⟩ := h2; exact h pre _ _ h1

theorem Legal.prefix {S E : Type} {next : S → E → S} {ok : S → E → Prop} {s0 : S} {l m : List E}
    (h : Legal next ok s0 (l ++ m)) : Legal next ok s0 l := by
  intro pre e post hp
  exact h pre e (post ++ m) (by simp [hp])

theorem snocInd {α : Type} {motive : List α → Prop} (nil : motive [])
    (snoc : ∀ l a, motive l → motive (l ++ [a])) (l : List α) : motive l := by
  have h : ∀ m : List α, motive m.reverse := by
    intro m
    induction m with
    | nil => simpa using nil
    | cons a m ih => simpa using snoc m.reverse a ih
  simpa using h l.reverse

end QCoro
