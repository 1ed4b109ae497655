import Verif.Yield.Props
/-! # The theorems of C82 applied to concrete generators: their hypotheses are met -/
namespace QCoro.Yield

set_option maxRecDepth 16000

/-- The consumer keeps a reference to the yielded variable (object 0) and to the yielded temporary (object 1). -/
def kept : List (Op Nat) := [.resume, .body, .body, .keep, .set none 7, .resume, .body, .body, .keep]
theorem var_alive : ¬ Over 0 (exec sample (0, 0) kept).log := by
  have h : (exec sample (0, 0) kept).log = [.resumed, .made 0 1, .yielded 0, .kept 0, .put none 0 7, .resumed, .loaded 0 7, .tmp 1 17, .yielded 1, .kept 1] := by decide
  rw [h]
  rintro (h | ⟨-, h | h⟩ | ⟨p, v, q, e, -⟩)
  · simp at h
  · simp at h
  · simp at h
  · have : Ev.tmp 0 v ∈ p ++ .tmp 0 v :: q := by simp
    rw [← e] at this
    simp at this
/-- The temporary is over when the generator has been resumed. -/
theorem tmp_over : Over 1 (exec sample (0, 0) (kept ++ [.resume])).log :=
  .inr (.inr ⟨[.resumed, .made 0 1, .yielded 0, .kept 0, .put none 0 7, .resumed, .loaded 0 7], 17, [.yielded 1, .kept 1, .resumed], by decide, by decide⟩)

example : (exec sample (0, 0) (kept ++ [.resume] ++ [.get (some 1)])).ub ≠ none :=
  (C82_get_ub_iff sample (0, 0) (kept ++ [.resume]) (by decide) (some 1)).2 (.inr ⟨1, by decide, tmp_over⟩)
example := C82_get sample (0, 0) kept (by decide) (some 0) 0 (by decide) var_alive
example : (exec sample (0, 0) (kept ++ [.set (some 0) 3])).log = (exec sample (0, 0) kept).log ++ [.put (some 0) 0 3] :=
  C82_set sample (0, 0) kept (by decide) (some 0) 3 0 (by decide) var_alive
example := C82_keep sample (0, 0) kept (by decide)
example := C82_sound sample (0, 0) kept [.resumed, .made 0 1, .yielded 0, .kept 0] (.put none 0 7) [.resumed, .loaded 0 7, .tmp 1 17, .yielded 1, .kept 1] (by decide)
example : ∀ w, (exec sample (0, 0) kept).log = [.resumed, .made 0 1, .yielded 0, .kept 0] ++ .put none 0 7 :: [.resumed] ++ .loaded 0 w :: [.tmp 1 17, .yielded 1, .kept 1] → w = 7 :=
  (C82_written_is_read sample (0, 0) kept [.resumed, .made 0 1, .yielded 0, .kept 0] [.resumed] [.tmp 1 17, .yielded 1, .kept 1] (.put none 0 7) 0 7 (by decide) (by decide)).2
example := C82_co_yield sample (0, 0) [.resume, .body] (by decide) (by decide) 0 (2, 0) (by rfl)
example := C82_co_yield_temporary sample (0, 0) [.resume, .body, .body, .resume, .body] (by decide) (by decide) 11 (4, 0) (by rfl)
example := C82_at_yield sample (0, 0) kept (by decide) (by decide)
example : (exec sample (0, 0) (kept ++ [.resume] ++ [.get (some 1)])).ub ≠ none :=
  C82_temporary_dangles sample (0, 0) (kept ++ [.resume]) (by decide) [.resumed, .made 0 1, .yielded 0, .kept 0, .put none 0 7, .resumed, .loaded 0 7]
    [.yielded 1, .kept 1, .resumed] 1 17 1 (by decide) (by decide) (by decide)
example := C82_variable_stays sample (0, 0) kept (by decide) 0 1 0 (by decide) (by decide)
example := C82_outer_stays lender 0 [.outer 5, .resume, .body, .keep, .resume, .body, .destroy] (by decide) 0 5 0 (by decide) (by decide)
/-- A body that yields an object of somebody else that is over: undefined. -/
example : (exec lender 0 ([.outer 5, .outerEnd 0, .resume] ++ [.body])).ub ≠ none :=
  (C82_body_ub_iff lender 0 [.outer 5, .outerEnd 0, .resume] (by decide)).2 ⟨by decide, .inl ⟨0, by decide, .inr (.inl (by decide))⟩⟩

end QCoro.Yield
