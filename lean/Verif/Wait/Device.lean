import Verif.Wait.Generic
/-
The coroutine-friendly wrappers of QIODevice, QAbstractSocket, QLocalSocket, QNetworkReply, QProcess and QTcpServer, as
calls of the shape of `Verif.Wait.Helper`.

Simplifications: `qint64` and `int` are unbounded integers.  A call that co_awaits another `Task` of the library (e.g.
`readAll` co_awaiting `waitForReadyRead`) is modelled by composing the two functions: that awaiting a `Task` continues
exactly once with its result is proved in `Verif.Task`.  The Qt devices themselves are modelled by their observable state,
which changes arbitrarily; `read`, `readAll` and `readLine` follow the Qt documentation.
-/
namespace QCoro.Wait

/-- `QAbstractSocket::SocketState`. Models Qt (documented behaviour), not code of /repo. -/
inductive TcpState | unconnected | hostLookup | connecting | connected | bound | listening | closing
deriving DecidableEq, Repr
/-- `QLocalSocket::LocalSocketState`. Models Qt (documented behaviour), not code of /repo. -/
inductive LocalState | unconnected | connecting | connected | closing
deriving DecidableEq, Repr
/-- `QProcess::ProcessState`. Models Qt (documented behaviour), not code of /repo. -/
inductive ProcState | notRunning | starting | running
deriving DecidableEq, Repr

/-- Signals of Qt devices. Models Qt (documented behaviour), not code of /repo. -/
inductive DSig
  | readyRead | bytesWritten (n : Int) | aboutToClose
  | tcpState (s : TcpState) | localState (s : LocalState) | connected | disconnected
  | errorOccurred | finished | started | newConnection | timeout | pong (ms : Int) (payload : Nat)
deriving DecidableEq, Repr

/-- What kind of device a `QCoroIODevice` wraps: which overrides of the virtual functions are called.
Overrides: `qcoro/network/qcoroabstractsocket.h`, `qcorolocalsocket.h`, `qcoronetworkreply.h`. -/
inductive DKind
  | plain                    -- QIODevice, QFile, QProcess, … (qcoro/core/qcoroiodevice.cpp)
  | tcp (s : TcpState)       -- QCoroAbstractSocket
  | loc (s : LocalState)     -- QCoroLocalSocket
  | reply (finished : Bool)  -- QCoroNetworkReply
deriving DecidableEq, Repr

/-- Observable state of an I/O device.
Models Qt (documented behaviour), not code of /repo; what `qcoro/core/qcoroiodevice.cpp:104-130` asks of it. -/
structure Dev where
  kind : DKind := .plain
  readable : Bool := true    -- isReadable()
  writable : Bool := true    -- isWritable()
  buf : List UInt8 := []     -- bytes available for reading
  toWrite : Nat := 0         -- bytesToWrite()
deriving DecidableEq, Repr

/-- What a call does at once: return, or wait.
Shape common to the functions of `qcoro/core/qcoroiodevice.cpp:57-130` and their relatives. -/
inductive Call (ρ δ β : Type)
  | ret (r : Res β) (d : Option δ)                  -- returned without suspending, leaving the device as `d`
  | wait (h : Helper DSig ρ) (k : Cont ρ δ β)       -- suspended

variable {ρ δ β : Type}

/-- What the call has returned after the events `ops` (`none`: still suspended).
Bookkeeping of the model, no counterpart in /repo. -/
def Call.out : Call ρ δ β → Int → δ → List (Op DSig δ) → Option (Res β)
  | .ret r _, _, _, _ => some r
  | .wait h k, t, d, ops => (run h k t d ops).out
/-- The device after these events. Bookkeeping of the model, no counterpart in /repo. -/
def Call.dev : Call ρ δ β → Int → δ → List (Op DSig δ) → Option δ
  | .ret _ d', _, _, ops => device d' ops
  | .wait h k, t, d, ops => (run h k t d ops).dev

/-! ### Helpers -/

/-- `WaitSignalHelper` (`qcoro/core/qcoroiodevice_p.cpp:9-19`, `qcoroiodevice_p.h:24-32`): `ready` for readyRead/bytesWritten, `closed` for aboutToClose;
both handlers drop connections 0 and 1 (`cleanup`, `:29-32`), plus `more` for overriders of `cleanup`. -/
def baseConns (ready : DSig → Option ρ) (closed : ρ) (more : List Nat) : List (Conn DSig ρ) :=
  [{ react := ready, disc := more ++ [0, 1] },
   { react := fun x => match x with | .aboutToClose => some closed | _ => none, disc := more ++ [0, 1] }]

/-- The helpers used by `waitForReadyReadImpl`/`waitForBytesWrittenImpl` of the device classes.
Lines of /repo are cited at each case (`qcoro/core/qcoroiodevice.cpp:132-140`, `qcoro/network/*.cpp`). -/
def helper (k : DKind) (ready : DSig → Option ρ) (closed fin : ρ) : Helper DSig ρ :=
  match k with
  | .plain => { conns := baseConns ready closed [] }   -- qcoroiodevice.cpp:132-140
  | .tcp _ =>   -- AbstractSocketReadySignalHelper (qcoroabstractsocket.cpp:14-41): its handler drops connection 2, `cleanup` is not overridden
    { conns := baseConns ready closed [] ++
        [{ react := fun x => match x with | .tcpState .closing => some closed | .tcpState .unconnected => some closed | _ => none, disc := [2, 0, 1] }] }
  | .loc _ =>   -- LocalSocketReadySignalHelper (qcorolocalsocket.cpp:45-70)
    { conns := baseConns ready closed [] ++
        [{ react := fun x => match x with | .localState .connected => none | .localState _ => some closed | _ => none, disc := [2, 0, 1] }] }
  | .reply _ => -- ReplyWaitSignalHelper (qcoronetworkreply.cpp:13-36): queued connections, `cleanup` drops all
    { conns := baseConns ready closed [2, 3] ++
        [{ react := fun x => match x with | .errorOccurred => some closed | _ => none, queued := true, disc := [2, 3, 0, 1] },
         { react := fun x => match x with | .finished => some fin | _ => none, queued := true, disc := [2, 3, 0, 1] }] }

/-- `&QIODevice::readyRead`. The signal given to the helper at `qcoro/core/qcoroiodevice.cpp:133`. -/
def onReadyRead : DSig → Option Bool
  | .readyRead => some true
  | _ => none
/-- `&QIODevice::bytesWritten`. The signal given to the helper at `qcoro/core/qcoroiodevice.cpp:138`. -/
def onBytesWritten : DSig → Option Int
  | .bytesWritten n => some n
  | _ => none

/-- The helper of `waitForReadyReadImpl` (`qcoro/core/qcoroiodevice.cpp:132-135` and overrides): `false` for closing, `true` for a finished reply (`qcoro/network/qcoronetworkreply.cpp:13-36`). -/
def readHelper (k : DKind) : Helper DSig Bool := helper k onReadyRead false true
/-- The helper of `waitForBytesWrittenImpl` (`qcoro/core/qcoroiodevice.cpp:137-140` and overrides). -/
def writeHelper (k : DKind) : Helper DSig Int := helper k onBytesWritten 0 0

/-- `co_await qCoro(device, &Device::signal, timeout)`: no helper object.
E.g. `qcoro/network/qcorotcpserver.cpp:46`, `qcoro/core/qcoroprocess.cpp`. -/
def ownSignal (x : DSig) : Helper DSig Unit := { conns := [{ react := fun y => if y = x then some () else none }], own := true }

/-! ### QCoroIODevice -/

/-- `waitForReadyReadImpl` (plain: `qcoroiodevice.cpp:132-135`, socket: `qcoroabstractsocket.cpp:48-56`, local socket:
`qcorolocalsocket.cpp:78-85`, reply: `qcoronetworkreply.cpp:83-90`): `inl r`: returns `r` at once. -/
def readImpl : DKind → Option Bool ⊕ Helper DSig Bool
  | .plain => .inr (readHelper .plain)
  | .tcp s => if s = .connected then .inr (readHelper (.tcp s)) else .inl (some false)
  | .loc s => if s = .connected then .inr (readHelper (.loc s)) else .inl (some false)
  | .reply f => if f then .inl (some true) else .inr (readHelper (.reply f))

/-- `waitForReadyRead(timeout)` (`qcoroiodevice.cpp:104-114`). -/
def waitForReadyRead (d : Option Dev) : Call Bool Dev Bool :=
  match d with
  | none => .ret .nullDeref none
  | some d =>
    if d.readable = false then .ret (.ok false) (some d)
    else if d.buf.length > 0 then .ret (.ok true) (some d)
    else match readImpl d.kind with
      | .inl r => .ret (.ok r.isSome) (some d)
      | .inr h => .wait h (fun r dv => (.ok r.isSome, dv))

/-- `waitForBytesWrittenImpl` (`qcoroiodevice.cpp:137-140`, `qcoroabstractsocket.cpp:58-66`, `qcorolocalsocket.cpp:87-94`,
`qcoronetworkreply.cpp:92-99`). -/
def writeImpl : DKind → Option Int ⊕ Helper DSig Int
  | .plain => .inr (writeHelper .plain)
  | .tcp s => if s = .connected then .inr (writeHelper (.tcp s)) else .inl none
  | .loc s => if s = .connected then .inr (writeHelper (.loc s)) else .inl none
  | .reply f => if f then .inl (some 0) else .inr (writeHelper (.reply f))

/-- `waitForBytesWritten(timeout)` (`qcoroiodevice.cpp:120-130`). -/
def waitForBytesWritten (d : Option Dev) : Call Int Dev (Option Int) :=
  match d with
  | none => .ret .nullDeref none
  | some d =>
    if d.writable = false then .ret (.ok none) (some d)
    else if d.toWrite = 0 then .ret (.ok (some 0)) (some d)
    else match writeImpl d.kind with
      | .inl r => .ret (.ok r) (some d)
      | .inr h => .wait h (fun r dv => (.ok r, dv))

/-- Qt's reading functions. Models Qt (documented behaviour), not code of /repo; called at `qcoro/core/qcoroiodevice.cpp:63`. -/
def Dev.readAll (d : Dev) : List UInt8 × Dev := (d.buf, { d with buf := [] })
/-- Models Qt (documented behaviour), not code of /repo: `QIODevice::read`; called at `qcoro/core/qcoroiodevice.cpp:72`. -/
def Dev.read (n : Nat) (d : Dev) : List UInt8 × Dev := (d.buf.take n, { d with buf := d.buf.drop n })
/-- Length of the first line, newline included. Models Qt (documented behaviour), not code of /repo. -/
def lineLen (b : List UInt8) : Nat := let i := b.findIdx (· == 10); if i < b.length then i + 1 else i
/-- Models Qt (documented behaviour), not code of /repo: `QIODevice::readLine`; called at `qcoro/core/qcoroiodevice.cpp:81`. -/
def Dev.readLine (n : Nat) (d : Dev) : List UInt8 × Dev :=
  let m := if n = 0 then lineLen d.buf else min n (lineLen d.buf)
  (d.buf.take m, { d with buf := d.buf.drop m })

/-- The code of `readAll`/`read`/`readLine` after `waitForReadyRead` (`qcoroiodevice.cpp:59-63`, `:68-72`, `:77-81`). -/
def afterReady (f : Dev → List UInt8 × Dev) : Res Bool × Option Dev → Res (List UInt8) × Option Dev
  | (.ok true, some d) => (.ok (f d).1, some (f d).2)
  | (.ok true, none) => (.nullDeref, none)
  | (.ok false, d) => (.ok [], d)
  | (.nullDeref, d) => (.nullDeref, d)

/-- `co_await waitForReadyRead(timeout)` followed by a read. (`qcoro/core/qcoroiodevice.cpp:57-82`). -/
def readWith (f : Dev → List UInt8 × Dev) (d : Option Dev) : Call Bool Dev (List UInt8) :=
  match waitForReadyRead d with
  | .ret r d' => .ret (afterReady f (r, d')).1 (afterReady f (r, d')).2
  | .wait h k => .wait h (fun r dv => afterReady f (k r dv))

/-- `readAll(timeout)` (`qcoroiodevice.cpp:57-64`). -/
def readAll : Option Dev → Call Bool Dev (List UInt8) := readWith Dev.readAll
/-- `read(maxSize, timeout)` (`qcoroiodevice.cpp:66-73`). -/
def read (n : Nat) : Option Dev → Call Bool Dev (List UInt8) := readWith (Dev.read n)
/-- `readLine(maxSize, timeout)` (`qcoroiodevice.cpp:75-82`). -/
def readLine (n : Nat) : Option Dev → Call Bool Dev (List UInt8) := readWith (Dev.readLine n)

/-! ### QCoroProcess (qcoro/core/qcoroprocess.cpp) -/

/-- `waitForStarted` (`:24-32`). -/
def procWaitForStarted (d : Option ProcState) : Call Unit ProcState Bool :=
  match d with
  | none => .ret .nullDeref none
  | some p =>
    if p = .starting then .wait (ownSignal .started) (fun r dv => (.ok r.isSome, dv))
    else .ret (.ok (decide (p = .running))) (some p)

/-- `waitForFinished` (`:38-46`). -/
def procWaitForFinished (d : Option ProcState) : Call Unit ProcState Bool :=
  match d with
  | none => .ret .nullDeref none
  | some p =>
    if p = .notRunning then .ret (.ok false) (some p)
    else .wait (ownSignal .finished) (fun r dv => (.ok r.isSome, dv))

/-- `start` (`:48-57`): `QProcess::start` leaves the process in state `p'`, then `waitForStarted`. -/
def procStart (d : Option ProcState) (p' : ProcState) : Call Unit ProcState Bool :=
  match d with
  | none => .ret .nullDeref none
  | some _ => procWaitForStarted (some p')

/-! ### QCoroAbstractSocket (qcoro/network/qcoroabstractsocket.cpp) -/

/-- `waitForConnected` (`:72-80`). -/
def tcpWaitForConnected (d : Option TcpState) : Call Unit TcpState Bool :=
  match d with
  | none => .ret .nullDeref none
  | some s =>
    if s = .connected then .ret (.ok true) (some s)
    else .wait (ownSignal .connected) (fun r dv => (.ok r.isSome, dv))

/-- `waitForDisconnected` (`:86-94`). -/
def tcpWaitForDisconnected (d : Option TcpState) : Call Unit TcpState Bool :=
  match d with
  | none => .ret .nullDeref none
  | some s =>
    if s = .unconnected then .ret (.ok false) (some s)
    else .wait (ownSignal .disconnected) (fun r dv => (.ok r.isSome, dv))

/-- `connectToHost` (`:96-107`): Qt's connectToHost leaves the socket in state `s'`. -/
def tcpConnect (d : Option TcpState) (s' : TcpState) : Call Unit TcpState Bool :=
  match d with
  | none => .ret .nullDeref none
  | some _ => tcpWaitForConnected (some s')

/-! ### QCoroLocalSocket (qcoro/network/qcorolocalsocket.cpp) -/

/-- `SocketConnectedHelper` (`:18-43`). -/
def connectedHelper : Helper DSig Bool :=
  { conns := [{ react := fun x => match x with | .connected => some true | _ => none, disc := [0, 1] },
              { react := fun x => match x with | .localState .unconnected => some false | _ => none, disc := [0, 1] }] }

/-- `waitForConnected` (`:100-108`). -/
def locWaitForConnected (d : Option LocalState) : Call Bool LocalState Bool :=
  match d with
  | none => .ret .nullDeref none
  | some s =>
    if s = .connected then .ret (.ok true) (some s)
    else .wait connectedHelper (fun r dv => (.ok (r.getD false), dv))

/-- `waitForDisconnected` (`:114-121`). -/
def locWaitForDisconnected (d : Option LocalState) : Call Unit LocalState Bool :=
  match d with
  | none => .ret .nullDeref none
  | some s =>
    if s = .unconnected then .ret (.ok false) (some s)
    else .wait (ownSignal .disconnected) (fun r dv => (.ok r.isSome, dv))

/-- `connectToServer` (`:123-133`). -/
def locConnect (d : Option LocalState) (s' : LocalState) : Call Bool LocalState Bool :=
  match d with
  | none => .ret .nullDeref none
  | some _ => locWaitForConnected (some s')

/-! ### QCoroNetworkReply (qcoro/network/qcoronetworkreply.cpp) -/

/-- `waitForFinished` (`:101-109`); the device state is `isFinished()`. -/
def replyWaitForFinished (d : Option Bool) : Call Unit Bool Bool :=
  match d with
  | none => .ret .nullDeref none
  | some f =>
    if f then .ret (.ok true) (some f)
    else .wait (ownSignal .finished) (fun r dv => (.ok r.isSome, dv))

/-! ### QCoroTcpServer (qcoro/network/qcorotcpserver.cpp) -/

/-- A server: `isListening()` and its pending connections, oldest first.
Models Qt (documented behaviour), not code of /repo; what `qcoro/network/qcorotcpserver.cpp:37-51` asks of it. -/
structure Server where
  listening : Bool := true
  pending : List Nat := []
deriving DecidableEq, Repr

/-- `QTcpServer::nextPendingConnection`: the oldest one, or null.
Models Qt (documented behaviour), not code of /repo; called at `qcoro/network/qcorotcpserver.cpp:43,48`. -/
def Server.next (s : Server) : Option Nat × Server := (s.pending.head?, { s with pending := s.pending.tail })

/-- The code of `waitForNewConnection` after the wait (`:46-50`). -/
def afterNewConnection : Cont Unit Server (Option Nat)
  | some _, some s => (.ok s.next.1, some s.next.2)
  | some _, none => (.nullDeref, none)
  | none, dv => (.ok none, dv)

/-- `waitForNewConnection` (`:37-51`). -/
def waitForNewConnection (d : Option Server) : Call Unit Server (Option Nat) :=
  match d with
  | none => .ret .nullDeref none
  | some s =>
    if s.listening = false then .ret (.ok none) (some s)
    else if s.pending ≠ [] then .ret (.ok s.next.1) (some s.next.2)
    else .wait (ownSignal .newConnection) afterNewConnection

end QCoro.Wait
