import Verif.Model.Server
/-!
# The Qt relay and the choice of a Qt binding

/repo/teleprox/qt_poll_thread.py, /repo/teleprox/qt_util.py. Qt itself is a library: signals between threads are queued and delivered in the order emitted. Sockets keep the
order of messages. The thread and the rest of the world run concurrently: each event below is one atomic step, histories are arbitrary lists of events, and an event that is
not possible at its moment changes nothing.
-/
namespace Verif

/-! ## The relay -/

/-- A Python object that is text or bytes; the two are never equal. For the comparison at /repo/teleprox/qt_poll_thread.py:54. -/
inductive PyText where
  | bytes (b : Bytes)
  | str (s : String)
  deriving DecidableEq, Repr

/-- Where the poll thread is. /repo/teleprox/qt_poll_thread.py:45-61. -/
inductive RelayPc where
  /-- before or in `poller.poll`; qt_poll_thread.py:49 -/
  | poll
  /-- the poll has returned; which sockets had something -/
  | polled (ret rpc : Bool)
  /-- the return socket is done; qt_poll_thread.py:58 -/
  | second (rpc : Bool)
  /-- left the loop -/
  | stopped
  /-- ended by an exception -/
  | dead (e : Exc)
  deriving DecidableEq, Repr

/-- Unread requests, unread results (name and data), signals not yet delivered, the place of the thread.
/repo/teleprox/qt_poll_thread.py:22-38. -/
structure RelaySt where
  rpc : List (List Bytes) := []
  ret : List (Bytes × Wire) := []
  signals : List (Bytes × Msg) := []
  pc : RelayPc := .poll

/-- What can happen. /repo/teleprox/qt_poll_thread.py:40-70. -/
inductive RelayEv where
  /-- a message arrives at the RPC socket -/
  | arrive (parts : List Bytes)
  /-- the Qt thread sends something for a client: `server._socket.send_multipart([caller, data])` -/
  | result (name : Bytes) (data : Wire)
  /-- the Qt thread calls `stop()`; qt_poll_thread.py:65-70 -/
  | stop
  /-- the poll thread makes a step -/
  | go
  /-- the Qt event loop delivers the oldest signal -/
  | deliver

/-- What can be observed. /repo/teleprox/qt_poll_thread.py:56, 61. -/
inductive RelayOut where
  /-- sent through the RPC socket to the client of this name -/
  | sent (name : Bytes) (data : Wire)
  /-- `_process_one(name, msg)` called in the Qt thread -/
  | process (name : Bytes) (msg : Msg)

/-- `b'STOP'`. /repo/teleprox/qt_poll_thread.py:70. -/
def stopName : Bytes := [83, 84, 79, 80]

/-- A step of the poll thread; /repo/teleprox/qt_poll_thread.py:45-61. `poll` may return nothing after 100 ms. The name received is bytes. -/
def RelaySt.go (H : Heap) (s : RelaySt) : RelaySt × List RelayOut :=
  match s.pc with
  | .poll => ({ s with pc := .polled (!s.ret.isEmpty) (!s.rpc.isEmpty) }, [])
  | .polled false rpc => ({ s with pc := .second rpc }, [])
  | .polled true rpc =>
    match s.ret with
    | [] => (s, [])
    | (name, data) :: r =>
      if PyText.bytes name = .str "STOP" then ({ s with ret := r, pc := .stopped }, [])
      else ({ s with ret := r, pc := .second rpc }, [.sent name data])
  | .second false => ({ s with pc := .poll }, [])
  | .second true =>
    match s.rpc with
    | [] => (s, [])
    | parts :: r =>
      match readOne H parts with
      | .error e => ({ s with rpc := r, pc := .dead e }, [])
      | .ok (name, msg) => ({ s with rpc := r, signals := s.signals ++ [(name, msg)], pc := .poll }, [])
  | .stopped => (s, [])
  | .dead _ => (s, [])

/-- One event. /repo/teleprox/qt_poll_thread.py:40-70. -/
def RelaySt.step (H : Heap) (s : RelaySt) : RelayEv → RelaySt × List RelayOut
  | .arrive parts => ({ s with rpc := s.rpc ++ [parts] }, [])
  | .result name data => ({ s with ret := s.ret ++ [(name, data)] }, [])
  | .stop => ({ s with ret := s.ret ++ [(stopName, .bin [])] }, [])
  | .go => s.go H
  | .deliver =>
    match s.signals with
    | [] => (s, [])
    | (name, msg) :: r => ({ s with signals := r }, [.process name msg])

/-- A history. Any interleaving of /repo/teleprox/qt_poll_thread.py:40-70. -/
def RelaySt.run (H : Heap) (s : RelaySt) : List RelayEv → RelaySt × List RelayOut
  | [] => (s, [])
  | e :: es =>
    let (s, o) := s.step H e
    let (s, o') := s.run H es
    (s, o ++ o')

/-! ## The choice of a binding -/

/-- The three modules used. /repo/teleprox/qt_util.py:62-68. -/
inductive QtMod where
  | core | gui | widgets
  deriving DecidableEq, Repr

/-- The order; /repo/teleprox/qt_util.py:8. -/
def qtLibs : List String := ["PyQt6", "PySide6", "PyQt5", "PySide2"]

/-- The namespace under construction or complete: whose it is, which modules it has, whether `Signal` was added, whether `make_qapp` was.
/repo/teleprox/qt_util.py:62-86. -/
structure QtNs where
  lib : String
  mods : List QtMod := []
  signal : Bool := false
  makeQapp : Bool := false
  deriving DecidableEq, Repr

/-- The globals of qt_util, and `sys.modules`. /repo/teleprox/qt_util.py:6-8, 30. -/
structure QtSt where
  have_ : Option Bool := none
  lib : Option String := none
  ns : Option QtNs := none
  loaded : List (String × QtMod) := []
  deriving DecidableEq, Repr

/-- `importlib.import_module` of a module: ImportError if it is not installed (or broken).
Used at /repo/teleprox/qt_util.py:52, 63-67. -/
def QtSt.importMod (installed : String → QtMod → Bool) (s : QtSt) (l : String) (m : QtMod) : QtSt × Bool :=
  if installed l m then ({ s with loaded := (l, m) :: s.loaded }, true) else (s, false)

/-- Whether any of its modules is in `sys.modules`. /repo/teleprox/qt_util.py:20. -/
def QtSt.isLoaded (s : QtSt) (l : String) : Bool := s.loaded.contains (l, .core) || s.loaded.contains (l, .gui) || s.loaded.contains (l, .widgets)

/-- `check_qt_imported`; /repo/teleprox/qt_util.py:10-24. -/
def QtSt.check (s : QtSt) : QtSt :=
  if s.have_ = none then
    match qtLibs.find? s.isLoaded with
    | some l => { s with have_ := some true, lib := some l }
    | none => s
  else s

/-- The loop over candidates; /repo/teleprox/qt_util.py:50-57. -/
def QtSt.tryLibs (installed : String → QtMod → Bool) (s : QtSt) : List String → QtSt
  | [] => s
  | l :: r =>
    match s.importMod installed l .core with
    | (s, true) => { s with have_ := some true, lib := some l }
    | (s, false) => s.tryLibs installed r

/-- Add a module to the namespace; the namespace is global from the beginning. /repo/teleprox/qt_util.py:62-68. -/
def QtSt.addMod (installed : String → QtMod → Bool) (s : QtSt) (l : String) (m : QtMod) : QtSt × Bool :=
  match s.importMod installed l m with
  | (s, true) => ({ s with ns := (s.ns.map fun n => { n with mods := n.mods ++ [m] }) }, true)
  | (s, false) => (s, false)

/-- Building the namespace; /repo/teleprox/qt_util.py:62-88. Simplification: other modules than those of PySide have `pyqtSignal`, and
no further name contains "PySide". -/
def QtSt.build (installed : String → QtMod → Bool) (s : QtSt) (l : String) : QtSt × Except Exc QtNs :=
  match ({ s with ns := some ⟨l, [], false, false⟩ } : QtSt).addMod installed l .core with
  | (s, false) => (s, .error .importError)
  | (s, true) =>
    match s.addMod installed l .gui with
    | (s, false) => (s, .error .importError)
    | (s, true) =>
      match s.addMod installed l .widgets with
      | (s, false) => (s, .error .importError)
      | (s, true) =>
        let s : QtSt := { s with ns := s.ns.map fun n => { n with signal := decide (l ≠ "PySide6" ∧ l ≠ "PySide2"), makeQapp := true } }
        match s.ns with
        | some n => (s, .ok n)
        | none => (s, .error .runtimeError)

/-- Which bindings to try; /repo/teleprox/qt_util.py:44-45. -/
def qtCandidates : Option String → List String
  | none => qtLibs
  | some l => [l]

/-- Import the first available, unless there is one already; /repo/teleprox/qt_util.py:47-57. -/
def QtSt.search (installed : String → QtMod → Bool) (s : QtSt) (req : Option String) : QtSt :=
  if s.have_ = some true then s else ({ s with have_ := some false } : QtSt).tryLibs installed (qtCandidates req)

/-- The end of `import_qt`; /repo/teleprox/qt_util.py:59-88. -/
def QtSt.conclude (installed : String → QtMod → Bool) (s : QtSt) : QtSt × Except Exc QtNs :=
  if s.have_ = some true then s.build installed (s.lib.getD "") else (s, .error .importError)

/-- `import_qt(qt_lib)`; /repo/teleprox/qt_util.py:31-88. -/
def QtSt.importQt (installed : String → QtMod → Bool) (s : QtSt) (req : Option String) : QtSt × Except Exc QtNs :=
  let s := if s.have_ = some true then s else s.check
  if s.have_ = some true ∧ req ≠ none ∧ req ≠ s.lib then (s, .error .valueError)
  else
    match s.ns with
    | some n => (s, .ok n)
    | none => (s.search installed req).conclude installed

/-- What a process does. /repo/teleprox/qt_util.py:10, 31. -/
inductive QtEv where
  /-- `import_qt(req)` -/
  | importQt (req : Option String)
  /-- `check_qt_imported()` -/
  | check
  /-- other code imports a module (or tries to) -/
  | other (l : String) (m : QtMod)
  deriving DecidableEq, Repr

/-- One event and, for `import_qt`, what it returns. /repo/teleprox/qt_util.py:10-24, 31-88. -/
def QtSt.step (installed : String → QtMod → Bool) (s : QtSt) : QtEv → QtSt × Option (Except Exc QtNs)
  | .importQt req => let (s, r) := s.importQt installed req; (s, some r)
  | .check => (s.check, none)
  | .other l m => ((s.importMod installed l m).1, none)

/-- A history. /repo/teleprox/qt_util.py:10-24, 31-88 in sequence. -/
def QtSt.run (installed : String → QtMod → Bool) (s : QtSt) (es : List QtEv) : QtSt := es.foldl (fun s e => (s.step installed e).1) s

end Verif
