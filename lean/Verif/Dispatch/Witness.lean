import Verif.Dispatch.Props
/-! # The theorems of C76 and C77 applied to concrete types and classes: their hypotheses are met -/
namespace QCoro.Dispatch

theorem qfuture_foreign : qfuture.Foreign := ⟨rfl, fun _ => rfl, fun _ => rfl, fun _ => rfl⟩
theorem qtimer_foreign : qtimer.Foreign := ⟨rfl, fun _ => rfl, fun _ => rfl, fun _ => rfl⟩
theorem task_uniform : task.Uniform := ⟨fun _ _ => rfl, fun _ _ => rfl, fun _ => rfl⟩
/-- A type that is registered and has `operator co_await` as well. Example. -/
def both : Ty := { registered := true, fromValue := fun _ => true, member := fun _ => true }

example : coAwait qtimer ⟨false, false⟩ .task = some .qtAwaiter := (C76_qt_types qtimer qtimer_foreign ⟨false, false⟩).1
example : coAwait qtimer ⟨false, true⟩ .task = none := (C76_qt_types qtimer qtimer_foreign ⟨false, true⟩).1
example := C76_own_awaitables task rfl task_uniform ⟨false, true⟩
example := C76_nothing_else qfuture ⟨false, true⟩ .qtAwaiter (by decide)
example := C76_nothing_else task ⟨true, false⟩ .fromOperator (by decide)
example := C76_accepted_iff awaiter rfl ⟨true, true⟩
example : coAwait both ⟨false, false⟩ .task = some .fromOperator ∧ coAwait both ⟨false, true⟩ .task = none :=
  C76_both both rfl ⟨fun _ _ => rfl, fun _ _ => rfl, fun _ => rfl⟩ false (by decide)
example : (connect qfuture ⟨false, true⟩ ⟨false, true⟩).isSome = true := (C76_connect_qt { qfuture with dflt := true } qfuture_foreign ⟨false, true⟩ ⟨false, true⟩).2 (by decide)
example := C76_connect_own task rfl task_uniform ⟨false, true⟩ ⟨true, false⟩
example := C76_connect_awaits awaiter ⟨false, true⟩ ⟨true, false⟩ .itself (by decide)

/-- `QTcpSocket` (`.user 0` of the example hierarchy) is nearest to QAbstractSocket. -/
theorem tcp : Nearest qt (.user 0) .abstractSocket := ⟨[.user 0], [.ioDevice], rfl, ⟨_, .abstractSocket⟩, by intro a ha h; simp at ha; subst ha; rintro ⟨⟩⟩
theorem proc : Nearest qt .process .process := ⟨[], [.ioDevice], rfl, ⟨_, .process⟩, by simp⟩
theorem tmr : Nearest qt .timer .timer := ⟨[], [], rfl, ⟨_, .timer⟩, by simp⟩

example : wrapper qt [.timer, .abstractSocket] .ptr (.user 0) = some .abstractSocket := C77_wrapper qt _ .ptr _ _ tcp .abstractSocket .abstractSocket (.inl (by decide))
example : wrapper qt [.process] .ptr (.user 0) = none :=
  C77_missing_header_pointer qt [.process] _ _ tcp (.inl rfl) .abstractSocket .abstractSocket (by simp [Sees]) (.inr ⟨rfl, .process, by simp, .inl rfl⟩)
example : wrapper qt [.ioDevice] .ptr .process = some .ioDevice :=
  C77_missing_header_silent qt qt_ok [.ioDevice] .ptr _ _ proc (.inl rfl) .process .process (by simp [Sees]) (.inl (by simp))
example : wrapper qt [.ioDevice] .obj (.user 0) = some .ioDevice :=
  C77_missing_header_silent qt qt_ok [.ioDevice] .obj _ _ tcp (.inr ⟨rfl, .inl rfl⟩) .abstractSocket .abstractSocket (by simp [Sees]) (.inl (by simp))
example : wrapper qt [.timer] .ptr (.user 0) = none := (C77_no_wrapper qt qt_ok [.timer] .ptr (.user 0)).1 _ tcp (by decide) (by simp [Sees])
example : wrapper qt [.ioDevice] .ptr .timer = none := (C77_no_wrapper qt qt_ok [.ioDevice] .ptr .timer).2.1 tmr (by simp [Sees])
example : wrapper qt [.ioDevice] .ptr (.user 2) = none :=
  (C77_no_wrapper qt qt_ok [.ioDevice] .ptr (.user 2)).2.2 (by intro b hb h; simp [qt] at hb; subst hb; rintro ⟨⟩)
example : awaiterType qt [.networkReply] .ptr .networkReply = some .finished := (C77_awaiter qt qt_ok _ _ _).1.2 ⟨rfl, rfl, .inl (by simp)⟩
example : awaiterType qt [.networkReply] .ptr (.user 1) = some .readAll :=
  (C77_awaiter qt qt_ok _ _ _).2.2.2 ⟨by decide, .inr ⟨rfl, .networkReply, by simp, by simp⟩, by simp⟩

end QCoro.Dispatch
