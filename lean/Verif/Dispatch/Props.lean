import Verif.Dispatch.Model
/-!
C76: what `co_await operand` awaits, for all types.  C77: which awaiter and wrapper a Qt object gets.
-/
namespace QCoro.Dispatch

/-- The type declares nothing that its own language rules could not use. -/
def Ty.Sane (x : Ty) : Prop := ∀ c, x.methods c = true → x.usable c = true

/-- A type with awaitability that does not depend on whether it is a temporary, and with await_ready() returning bool if it is its own awaiter.
Specification of user types, no counterpart in /repo. -/
structure Ty.Uniform (x : Ty) : Prop where
  member : ∀ c r, x.member ⟨c, r⟩ = x.member ⟨c, false⟩
  nonmember : ∀ c r, x.nonmember ⟨c, r⟩ = x.nonmember ⟨c, false⟩
  methods : ∀ c, x.methods c = x.usable c

/-- A type with an awaiter of its own in the library, and otherwise not awaitable. Specification of user types, no counterpart in /repo. -/
structure Ty.Foreign (x : Ty) : Prop where
  reg : x.registered = true
  member : ∀ e, x.member e = false
  nonmember : ∀ e, x.nonmember e = false
  methods : ∀ c, x.methods c = false

/-- Case analysis of overload resolution. -/
theorem overload_eq (x : Ty) (e : Expr) : overload x e =
    if e.rvalue then
      if x.registered && x.isAwaitable e.const false then none
      else if x.registered then some .registered else if x.isAwaitable e.const false then some .forward else none
    else if x.isAwaitable e.const false then some .lvalue
    else if x.registered && x.isAwaitable e.const true then none
    else if x.registered then some .registered else if x.isAwaitable e.const true then some .forward else none := by
  obtain ⟨c, r⟩ := e
  simp only [overload, overloads, List.find?, List.all, viable, beats]
  cases x.registered <;> cases r <;> cases h1 : x.isAwaitable c false <;> cases h2 : x.isAwaitable c true <;> cases c <;> simp [h1, h2] <;> decide

/-- C76. Qt types: in a Task or LazyTask coroutine `co_await e` uses the awaiter registered for the type, made from the operand, whatever its
constness and value category; it is rejected exactly if that awaiter cannot be made from it. -/
theorem C76_qt_types (x : Ty) (hx : x.Foreign) (e : Expr) :
    coAwait x e .task = (if x.fromValue e then some .qtAwaiter else none) ∧ coAwait x e .lazyTask = coAwait x e .task := by
  refine ⟨?_, rfl⟩
  have : ∀ c r, x.isAwaitable c r = false := fun c r => by simp [Ty.isAwaitable, hx.member, hx.nonmember, hx.methods]
  simp [coAwait, inTask, overload_eq, this, hx.reg]

/-- C76. A type that is awaitable by itself and not registered is awaited in a Task exactly as the language would await it: same operator, same
object, and it is accepted exactly if the language accepts it. -/
theorem C76_own_awaitables (x : Ty) (hr : x.registered = false) (hx : x.Uniform) (e : Expr) : coAwait x e .task = x.plain e := by
  obtain ⟨c, r⟩ := e
  have h1 : ∀ ref, x.isAwaitable c ref = (x.member ⟨c, false⟩ || x.nonmember ⟨c, false⟩ || x.usable c) := fun ref => by
    simp [Ty.isAwaitable, hx.nonmember c, hx.methods]
  have h2 : x.plain ⟨c, r⟩ = x.plain ⟨c, false⟩ := by simp [Ty.plain, hx.member c r, hx.nonmember c r]
  simp only [coAwait, inTask, overload_eq, hr, h1]
  cases r <;> cases hm : x.member ⟨c, false⟩ <;> cases hn : x.nonmember ⟨c, false⟩ <;> cases hu : x.usable c <;> simp [Ty.plain, hx.member c true, hx.nonmember c true, hm, hn, hu]

/-- C76. Whatever the type: what a Task coroutine awaits is either the registered awaiter of a registered type or just what the language would
await; the library never substitutes anything else. -/
theorem C76_nothing_else (x : Ty) (e : Expr) (u : Used) (h : coAwait x e .task = some u) :
    (u = .qtAwaiter ∧ x.registered = true ∧ x.fromValue e = true) ∨ (u ≠ .qtAwaiter ∧ x.plain e = some u) := by
  have hp : ∀ e u, x.plain e = some u → u ≠ .qtAwaiter := by
    intro e u hu
    simp only [Ty.plain] at hu
    repeat' split at hu
    all_goals first | (cases hu; simp) | cases hu
  simp only [coAwait, inTask] at h
  split at h
  · rename_i ho
    rw [overload_eq] at ho
    split at h
    · rename_i hf
      cases h
      refine .inl ⟨rfl, ?_, hf⟩
      cases hr : x.registered with
      | true => rfl
      | false => simp [hr] at ho; repeat' split at ho
                 all_goals simp at ho
    · cases h
  · exact .inr ⟨hp _ _ h, h⟩
  · rename_i ho
    have hr : e.rvalue = false := by
      cases hr : e.rvalue with
      | false => rfl
      | true => rw [overload_eq, hr] at ho; simp at ho; repeat' split at ho
                all_goals simp at ho
    have : (⟨e.const, false⟩ : Expr) = e := by cases e; simp_all
    rw [this] at h
    exact .inr ⟨hp _ _ h, h⟩
  · cases h

/-- C76. Exactly when an unregistered type is accepted: the language accepts it, and the concept sees it – which looks at an lvalue for the
member operator, also if the operand is a temporary, and wants await_ready() to return exactly bool. -/
theorem C76_accepted_iff (x : Ty) (hr : x.registered = false) (e : Expr) :
    (coAwait x e .task).isSome = true ↔
      (x.plain e).isSome = true ∧
      (x.member ⟨e.const, false⟩ = true ∨ x.methods e.const = true ∨ x.nonmember ⟨e.const, true⟩ = true ∨ (e.rvalue = false ∧ x.nonmember ⟨e.const, false⟩ = true)) := by
  obtain ⟨c, r⟩ := e
  simp only [coAwait, inTask, overload_eq, hr, Ty.isAwaitable]
  rcases Bool.eq_false_or_eq_true (x.member ⟨c, false⟩) with hm | hm <;> rcases Bool.eq_false_or_eq_true (x.nonmember ⟨c, false⟩) with hn | hn <;>
    rcases Bool.eq_false_or_eq_true (x.nonmember ⟨c, true⟩) with hn' | hn' <;> rcases Bool.eq_false_or_eq_true (x.methods c) with hu | hu <;>
    cases r <;> simp [hm, hn, hn', hu]

/-- C76. A type that is awaitable by itself and registered as well: named objects are awaited as the language does, temporaries are rejected
(the call of await_transform is ambiguous). -/
theorem C76_both (x : Ty) (hr : x.registered = true) (hx : x.Uniform) (c : Bool) (ha : x.direct ⟨c, false⟩ = true) :
    coAwait x ⟨c, false⟩ .task = x.plain ⟨c, false⟩ ∧ coAwait x ⟨c, true⟩ .task = none := by
  have h1 : ∀ ref, x.isAwaitable c ref = true := fun ref => by
    simp only [Ty.direct] at ha
    simp [Ty.isAwaitable, hx.nonmember c, hx.methods, ha]
  simp [coAwait, inTask, overload_eq, hr, h1]

/-- C76. In an AsyncGenerator the language's own rules apply: Qt types cannot be awaited there, though their qCoro() wrappers can; in a
Generator nothing can. -/
theorem C76_generators (x : Ty) (e : Expr) :
    coAwait x e .asyncGenerator = x.plain e ∧ coAwait x e .generator = none ∧
    (x.Foreign → x.usable e.const = false → coAwait x e .asyncGenerator = none) := by
  refine ⟨rfl, rfl, fun hx hu => ?_⟩
  simp [coAwait, Ty.plain, hx.member, hx.nonmember, hu]

/-- C76 counterexample: a type with `operator co_await() &&`, which the language accepts for temporaries, is rejected in a Task. -/
theorem C76_rvalue_operator_rejected :
    let x : Ty := { member := fun e => e.rvalue && !e.const }
    x.plain ⟨false, true⟩ = some .fromOperator ∧ coAwait x ⟨false, true⟩ .task = none ∧ coAwait x ⟨false, true⟩ .asyncGenerator = some .fromOperator := by decide

/-- C76 counterexample: an awaiter with `int await_ready()`, which the language accepts, is rejected in a Task. -/
theorem C76_int_ready_rejected :
    let x : Ty := { usable := fun _ => true }
    x.Sane ∧ x.plain ⟨false, true⟩ = some .itself ∧ coAwait x ⟨false, true⟩ .task = none := by
  refine ⟨fun c h => ?_, by decide, by decide⟩
  simp at h

theorem connect_iff (x : Ty) (e : Expr) (cb : Cb) :
    (connect x e cb).isSome = true ↔
      x.dflt = true ∧ (overload x ⟨e.const, true⟩).isSome = true ∧ (inTask x ⟨e.const, false⟩).isSome = true ∧ (cb.noArg = true ∨ (cb.withValue = true ∧ e.rvalue = true)) := by
  obtain ⟨c, r⟩ := e
  obtain ⟨n, v⟩ := cb
  have ho : (inTask x ⟨c, false⟩).isSome = true → (overload x ⟨c, false⟩).isSome = true := by
    simp only [inTask]; cases overload x ⟨c, false⟩ <;> simp
  simp only [connect, connectAccepts, hasReturnType, convertible]
  rcases Bool.eq_false_or_eq_true (overload x ⟨c, false⟩).isSome with h1 | h1 <;> rcases Bool.eq_false_or_eq_true (overload x ⟨c, true⟩).isSome with h2 | h2 <;>
    rcases Bool.eq_false_or_eq_true x.dflt with h3 | h3 <;> rcases Bool.eq_false_or_eq_true (inTask x ⟨c, false⟩).isSome with h4 | h4 <;>
    cases n <;> cases v <;> cases r <;> simp_all

/-- C76. `connect(e, context, callback)` on an awaitable: exactly when it compiles. The operand's type must be default constructible (even if the callback
takes nothing), a named object of it awaitable in a Task (even if `e` is a temporary), and it must not be awaitable by itself and registered at once; a callback that
takes the result needs a temporary (or moved) operand. -/
theorem C76_connect_iff (x : Ty) (e : Expr) (cb : Cb) :
    (connect x e cb).isSome = true ↔
      x.dflt = true ∧ (coAwait x ⟨e.const, false⟩ .task).isSome = true ∧
      (x.registered = true ↔ ¬ (x.member ⟨e.const, false⟩ = true ∨ x.nonmember ⟨e.const, true⟩ = true ∨ x.methods e.const = true)) ∧
      (cb.noArg = true ∨ (cb.withValue = true ∧ e.rvalue = true)) := by
  rw [connect_iff]
  have : (overload x ⟨e.const, true⟩).isSome = true ↔
      (x.registered = true ↔ ¬ (x.member ⟨e.const, false⟩ = true ∨ x.nonmember ⟨e.const, true⟩ = true ∨ x.methods e.const = true)) := by
    rw [overload_eq]
    simp only [Ty.isAwaitable]
    rcases Bool.eq_false_or_eq_true (x.member ⟨e.const, false⟩) with hm | hm <;> rcases Bool.eq_false_or_eq_true (x.nonmember ⟨e.const, true⟩) with hn | hn <;>
      rcases Bool.eq_false_or_eq_true (x.methods e.const) with hu | hu <;> rcases Bool.eq_false_or_eq_true x.registered with hr | hr <;> simp [hm, hn, hu, hr]
  rw [this]
  constructor
  · rintro ⟨h1, h2, h3, h4⟩; exact ⟨h1, h3, h2, h4⟩
  · rintro ⟨h1, h3, h2, h4⟩; exact ⟨h1, h2, h3, h4⟩

/-- C76. For Qt types: exactly if the awaiter can be made from a named object. -/
theorem C76_connect_qt (x : Ty) (hx : x.Foreign) (e : Expr) (cb : Cb) :
    (connect x e cb).isSome = true ↔ x.dflt = true ∧ x.fromValue ⟨e.const, false⟩ = true ∧ (cb.noArg = true ∨ (cb.withValue = true ∧ e.rvalue = true)) := by
  rw [C76_connect_iff, (C76_qt_types x hx _).1]
  simp only [hx.reg, hx.member, hx.nonmember, hx.methods]
  cases x.fromValue ⟨e.const, false⟩ <;> simp

/-- C76. For types that are awaitable by themselves: exactly if the language can await a named object of the type. -/
theorem C76_connect_own (x : Ty) (hr : x.registered = false) (hx : x.Uniform) (e : Expr) (cb : Cb) :
    (connect x e cb).isSome = true ↔ x.dflt = true ∧ (x.plain ⟨e.const, false⟩).isSome = true ∧ (cb.noArg = true ∨ (cb.withValue = true ∧ e.rvalue = true)) := by
  rw [C76_connect_iff, C76_own_awaitables x hr hx, hx.nonmember e.const true, hx.methods]
  simp only [hr, Ty.plain]
  rcases Bool.eq_false_or_eq_true (x.member ⟨e.const, false⟩) with hm | hm <;> rcases Bool.eq_false_or_eq_true (x.nonmember ⟨e.const, false⟩) with hn | hn <;>
    rcases Bool.eq_false_or_eq_true (x.usable e.const) with hu | hu <;> simp [hm, hn, hu]

/-- C76. Then the converted task awaits the operand as `co_await e` in a Task awaits a named object; and if it is resumed after connect()
returned it touches a dead object exactly if the operand was a temporary that is its own awaiter. -/
theorem C76_connect_awaits (x : Ty) (e : Expr) (cb : Cb) (u : Used) (h : connect x e cb = some u) :
    coAwait x ⟨e.const, false⟩ .task = some u ∧
    (touchesDead u e = true ↔ e.rvalue = true ∧ x.member ⟨e.const, false⟩ = false ∧ x.nonmember ⟨e.const, false⟩ = false ∧ u ≠ .qtAwaiter) := by
  simp only [connect] at h
  split at h
  · refine ⟨h, ?_⟩
    rcases C76_nothing_else x ⟨e.const, false⟩ u h with ⟨rfl, _⟩ | ⟨hu, hp⟩
    · simp [touchesDead]
    · simp only [Ty.plain] at hp
      cases u with
      | qtAwaiter => simp at hu
      | fromOperator =>
        simp only [touchesDead]
        split at hp
        · rename_i hm
          simp only [Bool.or_eq_true] at hm
          constructor
          · intro h; simp at h
          · rintro ⟨_, h1, h2, _⟩; rw [h1, h2] at hm; simp at hm
        · split at hp <;> cases hp
      | itself =>
        split at hp
        · cases hp
        · rename_i hm
          simp only [Bool.or_eq_true, not_or, Bool.not_eq_true] at hm
          simp [touchesDead, hm]
  · cases h

/-! ### Examples -/

/-- `QFuture<T>`: registered, copied into its awaiter. Example. -/
def qfuture : Ty := { registered := true, fromValue := fun _ => true }
/-- `QTimer`: registered, its awaiter takes a `QTimer &`. Example. -/
def qtimer : Ty := { registered := true, fromValue := fun e => !e.const && !e.rvalue }
/-- `Task<T>`: `operator co_await() const`. Example. -/
def task : Ty := { member := fun _ => true }
/-- A default constructible class with await_ready(), await_suspend(), await_resume(). Example. -/
def awaiter : Ty := { methods := fun c => !c, usable := fun c => !c }

example : qfuture.Foreign ∧ qtimer.Foreign := ⟨⟨rfl, fun _ => rfl, fun _ => rfl, fun _ => rfl⟩, ⟨rfl, fun _ => rfl, fun _ => rfl, fun _ => rfl⟩⟩
example : task.Uniform ∧ awaiter.Uniform := ⟨⟨fun _ _ => rfl, fun _ _ => rfl, fun _ => rfl⟩, ⟨fun _ _ => rfl, fun _ _ => rfl, fun _ => rfl⟩⟩
example : coAwait qfuture ⟨false, true⟩ .task = some .qtAwaiter ∧ coAwait qtimer ⟨false, true⟩ .task = none ∧ coAwait qtimer ⟨false, false⟩ .task = some .qtAwaiter ∧
    coAwait task ⟨true, false⟩ .lazyTask = some .fromOperator ∧ coAwait awaiter ⟨false, true⟩ .task = some .itself ∧ coAwait awaiter ⟨true, true⟩ .task = none := by decide
-- connect(future, context, [](int) {…}) with a named future does not compile, connect(std::move(future), …) does
example : connect qfuture ⟨false, false⟩ ⟨false, true⟩ = none ∧ connect qfuture ⟨false, true⟩ ⟨false, true⟩ = some .qtAwaiter ∧ connect qfuture ⟨false, false⟩ ⟨true, false⟩ = some .qtAwaiter := by decide
-- connect(Awaiter{}, …) touches the dead temporary
example : connect awaiter ⟨false, true⟩ ⟨true, false⟩ = some .itself ∧ touchesDead .itself ⟨false, true⟩ = true := by decide

/-! ### C77 -/

/-- The classes with a wrapper of their own in the library, and the header that defines it. Specification, no counterpart in /repo. -/
inductive Own : Cls → Header → Prop
  | ioDevice : Own .ioDevice .ioDevice
  | process : Own .process .process
  | abstractSocket : Own .abstractSocket .abstractSocket
  | localSocket : Own .localSocket .localSocket
  | networkReply : Own .networkReply .networkReply
  | timer : Own .timer .timer

/-- With the headers `hs` included the definitions of `h` are known: it is among them; or it is that of QIODevice and one of a more special
device is. Specification, no counterpart in /repo. -/
def Sees (hs : List Header) (h : Header) : Prop :=
  h ∈ hs ∨ (h = .ioDevice ∧ ∃ x ∈ hs, x = .process ∨ x = .abstractSocket ∨ x = .localSocket ∨ x = .networkReply)

/-- What the headers are for: `b` is the nearest base class of `c` with a wrapper of its own in the library.
Specification, no counterpart in /repo. -/
def Nearest (H : Hierarchy) (c b : Cls) : Prop := ∃ l r, H.base c = l ++ b :: r ∧ (∃ h, Own b h) ∧ ∀ a ∈ l, ∀ h, ¬ Own a h

/-- A hierarchy as C++ and Qt have it: every class starts its own chain, chains end in chains; the special Qt classes other than QTimer are devices.
Specification of user code and Qt. -/
structure Hierarchy.Ok (H : Hierarchy) : Prop where
  self : ∀ c, ∃ l, H.base c = c :: l
  tail : ∀ c l b r, H.base c = l ++ b :: r → H.base b = b :: r
  io : H.base .ioDevice = [.ioDevice]
  devs : ∀ c, c = .process ∨ c = .abstractSocket ∨ c = .localSocket ∨ c = .networkReply → H.base c = [c, .ioDevice]
  timer : H.base .timer = [.timer]

theorem own_iff (c : Cls) (h : Header) : Own c h ↔ headerOf c = some h := by
  constructor
  · rintro ⟨⟩ <;> rfl
  · cases c <;> simp only [headerOf, Option.some.injEq, reduceCtorEq, false_implies] <;> rintro rfl <;> constructor

theorem own_none (c : Cls) : (∀ h, ¬ Own c h) ↔ headerOf c = none := by
  simp only [own_iff]
  cases headerOf c <;> simp

theorem sees_iff (hs : List Header) (h : Header) : Sees hs h ↔ visible hs h = true := by
  simp only [Sees, visible, Bool.or_eq_true, Bool.and_eq_true, List.contains_iff_mem, beq_iff_eq]
  constructor
  · rintro (h | ⟨rfl, x, hx, rfl | rfl | rfl | rfl⟩) <;> simp_all
  · rintro (h | ⟨rfl, ((h | h) | h) | h⟩)
    · exact .inl h
    · exact .inr ⟨rfl, _, h, by simp⟩
    · exact .inr ⟨rfl, _, h, by simp⟩
    · exact .inr ⟨rfl, _, h, by simp⟩
    · exact .inr ⟨rfl, _, h, by simp⟩

theorem find_nearest {H : Hierarchy} {c b : Cls} (h : Nearest H c b) (hs : List Header) (f : Form) (hd : declared hs f b = true) :
    (H.base c).find? (declared hs f) = some b := by
  obtain ⟨l, r, e, hb, hl⟩ := h
  rw [e, List.find?_append]
  have : l.find? (declared hs f) = none := by
    rw [List.find?_eq_none]; intro a ha; simp [declared, (own_none a).1 (hl a ha)]
  simp [this, hd]

/-- C77. With the header of the nearest wrapped base class included, qCoro(pointer) and qCoro(object) give its wrapper – whatever other
headers are included, and however far the class is derived. -/
theorem C77_wrapper (H : Hierarchy) (hs : List Header) (f : Form) (c b : Cls) (hn : Nearest H c b) (h : Header) (hh : Own b h) (hv : Sees hs h) :
    wrapper H hs f c = some b := by
  have hvis : visible hs h = true := (sees_iff hs h).1 hv
  have hh := (own_iff b h).1 hh
  have hd : declared hs f b = true := by simp [declared, hh, hvis]
  simp [wrapper, find_nearest hn hs f hd, hh, hvis]

/-- C77. Without that header: a pointer to a socket or reply is rejected (never wrapped as a mere QIODevice), -/
theorem C77_missing_header_pointer (H : Hierarchy) (hs : List Header) (c b : Cls) (hn : Nearest H c b)
    (hb : b = .abstractSocket ∨ b = .localSocket ∨ b = .networkReply) (h : Header) (hh : Own b h) (hv : ¬ Sees hs h) (hio : Sees hs .ioDevice) :
    wrapper H hs .ptr c = none := by
  rw [sees_iff] at hv hio
  rw [own_iff] at hh
  have hd : declared hs .ptr b = true := by
    rcases hb with rfl | rfl | rfl <;> simp [declared, headerOf, hio]
  simp [wrapper, find_nearest hn hs .ptr hd, hh, hv]

/-- … but an object of such a class, and a QProcess in either form, are silently wrapped as a mere QIODevice. -/
theorem C77_missing_header_silent (H : Hierarchy) (ho : H.Ok) (hs : List Header) (f : Form) (c b : Cls) (hn : Nearest H c b)
    (hb : b = .process ∨ (f = .obj ∧ (b = .abstractSocket ∨ b = .localSocket ∨ b = .networkReply))) (h : Header) (hh : Own b h) (hv : ¬ Sees hs h)
    (hio : Sees hs .ioDevice) : wrapper H hs f c = some .ioDevice := by
  rw [sees_iff] at hv hio
  rw [own_iff] at hh
  obtain ⟨l, r, e, _, hl⟩ := hn
  have hr : r = [.ioDevice] := by
    have h1 := ho.tail c l b r e
    have h2 := ho.devs b (by rcases hb with rfl | ⟨_, rfl | rfl | rfl⟩ <;> simp)
    rw [h1] at h2
    simpa using h2
  subst hr
  have hd : declared hs f b = false := by
    rcases hb with rfl | ⟨rfl, rfl | rfl | rfl⟩ <;> simp_all [declared, headerOf]
  have hdi : declared hs f .ioDevice = true := by simp [declared, headerOf, hio]
  have : l.find? (declared hs f) = none := by
    rw [List.find?_eq_none]; intro a ha; simp [declared, (own_none a).1 (hl a ha)]
  have hf : (H.base c).find? (declared hs f) = some .ioDevice := by
    rw [e, List.find?_append, this]; simp [List.find?, hd, hdi]
  simp [wrapper, hf, headerOf, hio]

/-- C77. With no header that knows QIODevice a device has no wrapper at all, a QTimer none without its own header; and a class with no wrapped
base class never has one. -/
theorem C77_no_wrapper (H : Hierarchy) (ho : H.Ok) (hs : List Header) (f : Form) (c : Cls) :
    (∀ b, Nearest H c b → b ≠ .timer → ¬ Sees hs .ioDevice → wrapper H hs f c = none) ∧
    (Nearest H c .timer → ¬ Sees hs .timer → wrapper H hs f c = none) ∧
    ((∀ b ∈ H.base c, ∀ h, ¬ Own b h) → wrapper H hs f c = none) := by
  have fnone : (∀ a ∈ H.base c, declared hs f a = false) → wrapper H hs f c = none := by
    intro h
    have : (H.base c).find? (declared hs f) = none := by
      rw [List.find?_eq_none]; intro a ha; simp [h a ha]
    simp [wrapper, this]
  refine ⟨fun b hn hb hv => ?_, fun hn hv => ?_, fun h => ?_⟩
  · rw [sees_iff, Bool.not_eq_true] at hv
    obtain ⟨l, r, e, ⟨h, hh⟩, hl⟩ := hn
    refine fnone fun a ha => ?_
    rw [e, List.mem_append, List.mem_cons] at ha
    have no : ∀ x, x ≠ .timer → visible hs x = false := by
      intro x hx
      rcases Bool.eq_false_or_eq_true (visible hs x) with h | h
      · have h1 := (sees_iff hs x).2 h
        have h2 : ¬ Sees hs .ioDevice := by rw [sees_iff, hv]; simp
        rcases h1 with h1 | ⟨rfl, h1⟩
        · exfalso; apply h2
          cases x
          · exact .inl h1
          · exact .inr ⟨rfl, _, h1, by simp⟩
          · exact .inr ⟨rfl, _, h1, by simp⟩
          · exact .inr ⟨rfl, _, h1, by simp⟩
          · exact .inr ⟨rfl, _, h1, by simp⟩
          · exact absurd rfl hx
        · exact absurd (.inr ⟨rfl, h1⟩) h2
      · exact h
    have nd : ∀ a, a ≠ .timer → declared hs f a = false := by
      intro a ha
      cases a <;> simp_all [declared, headerOf]
    rcases ha with ha | rfl | ha
    · exact by simp [declared, (own_none a).1 (hl a ha)]
    · exact nd a hb
    · refine nd a ?_
      rintro rfl
      have h1 := ho.tail c l b r e
      cases hh with
      | ioDevice => rw [ho.io] at h1; cases h1; simp at ha
      | timer => exact hb rfl
      | _ => rw [ho.devs _ (by simp)] at h1; cases h1; simp at ha
  · rw [sees_iff, Bool.not_eq_true] at hv
    obtain ⟨l, r, e, _, hl⟩ := hn
    have hr : r = [] := by
      have h1 := ho.tail c l _ r e
      rw [ho.timer] at h1
      simpa using h1.symm
    subst hr
    refine fnone fun a ha => ?_
    rw [e, List.mem_append, List.mem_singleton] at ha
    rcases ha with ha | rfl
    · exact by simp [declared, (own_none a).1 (hl a ha)]
    · simp [declared, headerOf, hv]
  · exact fnone fun a ha => by simp [declared, (own_none a).1 (h a ha)]

/-- C77. `co_await` on a device: exactly a QNetworkReply * (not a pointer to a derived class, not the object) waits for finished, and only if its
header is included; every other device, in either form, is read; a QTimer waits for its timeout; anything else has no awaiter. -/
theorem C77_awaiter (H : Hierarchy) (ho : H.Ok) (hs : List Header) (f : Form) (c : Cls) :
    (awaiterType H hs f c = some .finished ↔ f = .ptr ∧ c = .networkReply ∧ Sees hs .networkReply) ∧
    (awaiterType H hs f c = some .timeout ↔ c = .timer ∧ Sees hs .timer) ∧
    (awaiterType H hs f c = some .readAll ↔
      .ioDevice ∈ H.base c ∧ Sees hs .ioDevice ∧ ¬ (f = .ptr ∧ c = .networkReply ∧ Sees hs .networkReply)) := by
  simp only [sees_iff]
  have ht : c = .timer → .ioDevice ∉ H.base c := by rintro rfl; rw [ho.timer]; simp
  simp only [awaiterType]
  by_cases h1 : c = .timer
  · have := ht h1
    subst h1
    cases visible hs .timer <;> cases f <;> simp_all
  · by_cases h2 : f = .ptr ∧ c = .networkReply ∧ visible hs .networkReply = true
    · obtain ⟨rfl, rfl, hv⟩ := h2
      simp [hv]
    · have e2 : (f == .ptr && c == .networkReply && visible hs .networkReply) = false := by
        cases hb : (f == .ptr && c == .networkReply && visible hs .networkReply) with
        | false => rfl
        | true => simp [and_assoc] at hb; exact absurd hb h2
      rw [if_neg (by simp [h1]), e2]
      by_cases h3 : ((H.base c).contains .ioDevice && visible hs .ioDevice) = true
      · rw [if_neg (by simp), if_pos h3]
        simp at h3
        simp [h3, h1]; simpa using h2
      · rw [if_neg (by simp), if_neg h3]
        simp at h3
        simp [h1]
        refine ⟨by simpa using h2, fun h => ?_⟩
        rw [h3 h]; simp

/-- QTcpSocket (`user 0`), a class derived from QNetworkReply (`user 1`). Example. -/
def qt : Hierarchy where
  base
    | .ioDevice => [.ioDevice]
    | .timer => [.timer]
    | .user 0 => [.user 0, .abstractSocket, .ioDevice]
    | .user 1 => [.user 1, .networkReply, .ioDevice]
    | .user n => [.user n]
    | c => [c, .ioDevice]

theorem qt_self (c : Cls) : ∃ l, qt.base c = c :: l := by
  cases c with
  | user n =>
    rcases n with _ | _ | n
    · exact ⟨_, rfl⟩
    · exact ⟨_, rfl⟩
    · exact ⟨_, rfl⟩
  | _ => exact ⟨_, rfl⟩

theorem qt_tail (c : Cls) (l : List Cls) (b : Cls) (r : List Cls) (h : qt.base c = l ++ b :: r) : qt.base b = b :: r := by
  have h3 : ∀ x y : Cls, ∀ l b r, [x, y, Cls.ioDevice] = l ++ b :: r → (b = x ∧ r = [y, .ioDevice]) ∨ (b = y ∧ r = [.ioDevice]) ∨ (b = .ioDevice ∧ r = []) := by
    intro x y l b r h
    rcases l with _ | ⟨a, _ | ⟨a', _ | ⟨a'', l⟩⟩⟩ <;> simp_all
  have h2 : ∀ x : Cls, ∀ l b r, [x, Cls.ioDevice] = l ++ b :: r → (b = x ∧ r = [.ioDevice]) ∨ (b = .ioDevice ∧ r = []) := by
    intro x l b r h
    rcases l with _ | ⟨a, _ | ⟨a', l⟩⟩ <;> simp_all
  have h1 : ∀ x : Cls, ∀ l b r, [x] = l ++ b :: r → b = x ∧ r = [] := by
    intro x l b r h
    rcases l with _ | ⟨a, l⟩ <;> simp_all
  cases c with
  | user n =>
    rcases n with _ | _ | n
    · rcases h3 _ _ _ _ _ h with ⟨rfl, rfl⟩ | ⟨rfl, rfl⟩ | ⟨rfl, rfl⟩ <;> rfl
    · rcases h3 _ _ _ _ _ h with ⟨rfl, rfl⟩ | ⟨rfl, rfl⟩ | ⟨rfl, rfl⟩ <;> rfl
    · obtain ⟨rfl, rfl⟩ := h1 _ _ _ _ h; rfl
  | ioDevice => obtain ⟨rfl, rfl⟩ := h1 _ _ _ _ h; rfl
  | timer => obtain ⟨rfl, rfl⟩ := h1 _ _ _ _ h; rfl
  | process => rcases h2 _ _ _ _ h with ⟨rfl, rfl⟩ | ⟨rfl, rfl⟩ <;> rfl
  | abstractSocket => rcases h2 _ _ _ _ h with ⟨rfl, rfl⟩ | ⟨rfl, rfl⟩ <;> rfl
  | localSocket => rcases h2 _ _ _ _ h with ⟨rfl, rfl⟩ | ⟨rfl, rfl⟩ <;> rfl
  | networkReply => rcases h2 _ _ _ _ h with ⟨rfl, rfl⟩ | ⟨rfl, rfl⟩ <;> rfl

theorem qt_ok : qt.Ok where
  self := qt_self
  tail := qt_tail
  io := rfl
  devs c h := by rcases h with rfl | rfl | rfl | rfl <;> rfl
  timer := rfl

example : Nearest qt (.user 0) .abstractSocket := ⟨[.user 0], [.ioDevice], rfl, ⟨_, .abstractSocket⟩, by intro a ha h; simp at ha; subst ha; rintro ⟨⟩⟩
-- QTcpSocket: with the socket header the socket wrapper; without it a pointer is rejected, the object is wrapped as a device
example : wrapper qt [.abstractSocket, .timer] .ptr (.user 0) = some .abstractSocket ∧ wrapper qt [.ioDevice] .ptr (.user 0) = none ∧
    wrapper qt [.ioDevice] .obj (.user 0) = some .ioDevice ∧ wrapper qt [.ioDevice] .ptr .process = some .ioDevice := by decide

/-- C77 counterexample: `co_await reply` waits for the end of the transfer if `reply` is a `QNetworkReply *`, but reads what is there if it is a
pointer to a derived class, if it is `*reply`, or if only the header of QIODevice is included. -/
theorem C77_reply_read : awaiterType qt [.networkReply] .ptr .networkReply = some .finished ∧ awaiterType qt [.networkReply] .ptr (.user 1) = some .readAll ∧
    awaiterType qt [.networkReply] .obj .networkReply = some .readAll ∧ awaiterType qt [.ioDevice] .ptr .networkReply = some .readAll := by decide

end QCoro.Dispatch
