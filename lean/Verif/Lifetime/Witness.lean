import Verif.Lifetime.Props
/-! # The theorems of C80 applied to concrete calls: their hypotheses are met -/
namespace QCoro.Lifetime
open Stmt

/-- A read whose wrapper is destroyed while it waits, which is safe. -/
def readGone : List Act := ([.use .self, .use .self, .use .self, .use .self, .use .self, .use .self, .suspend] : List Ev).map .ev ++ [.destroy .self]

theorem readGone_runs : Runs (body (.readAll .reply)) readGone := by
  have h : (body (.readAll .reply)).Trace _ :=
    .seq (.use _) (.seq (.use _) (.seq (.use _) (.right (.seq (.use _) (.right (.seq (.use _) (.seq (.use _) (.right .wait))))))))
  exact ⟨[], h⟩

theorem readGone_polite : Polite readGone := by
  intro p r q e
  have : p = (([.use .self, .use .self, .use .self, .use .self, .use .self, .use .self, .suspend] : List Ev).map Act.ev) := by
    rcases p with _ | ⟨a1, _ | ⟨a2, _ | ⟨a3, _ | ⟨a4, _ | ⟨a5, _ | ⟨a6, _ | ⟨a7, _ | ⟨a8, p⟩⟩⟩⟩⟩⟩⟩⟩ <;> simp_all [readGone]
    obtain ⟨rfl, rfl, rfl, rfl, rfl, rfl, rfl, rfl, rfl⟩ := e; simp
  subst this; decide

example : ub [] readGone = false := C80_safe (.readAll .reply) readGone readGone_runs readGone_polite (by simp [readGone, Unsafe])

/-- `then` on a temporary LazyTask: the default error handler dies with the call. -/
example : ub [] ([.ev (.use .task), .ev .suspend] ++ .destroy .handler :: [.ev (.use .callback), .ev (.use .handler), .ev .suspend]) = true :=
  C80_default_handler true true .plain .same _ _ rfl
    (.seq (.use _) (.seq .park (.seq (.use _) (.seq (.use _) (.seq .nop (.seq .wait (.left .nop)))))))

end QCoro.Lifetime
