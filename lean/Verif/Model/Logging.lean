import Verif.Model.Address
import Verif.Model.LogRemote

/-! # How a process sets up its logging

Models /repo/teleprox/log/__init__.py:14-36 (`basic_config`), /repo/teleprox/log/handler.py:127-151 (`log_exceptions`),
/repo/teleprox/log/stdio.py:27-48 (`StdioLogSender.__init__`) and /repo/teleprox/log/remote.py:25-66 (the names), together with the parts of Python's
`logging` these rely on: the tree of loggers, levels, propagation and the cache of `isEnabledFor`. -/

namespace Verif

/-! ## Names -/

/-- The names of a process for logging; /repo/teleprox/log/remote.py:20-22. The ident of a thread is a natural number. -/
structure NamesSt where
  host : String
  process : String
  threads : Dict Nat String := []
  deriving DecidableEq, Repr

/-- What happens in a process. Threads are uids; /repo/teleprox/log/remote.py:25, 37, 49. `tid` is the argument of `set_thread_name`. -/
inductive NamesEv where
  | begin (t : Nat)
  | finish (t : Nat)
  | setHost (n : String)
  | setProcess (n : String)
  | setThread (t : Nat) (tid : Option Nat) (n : String)
  deriving DecidableEq, Repr

/-- `set_host_name`, `set_process_name`, `set_thread_name`; /repo/teleprox/log/remote.py:25-29, 37-41, 49-57. `ident t` is the ident Python gives thread `t`.
Begin and end of threads change no name. -/
def NamesSt.step (ident : Nat → Nat) (s : NamesSt) : NamesEv → NamesSt
  | .begin _ => s
  | .finish _ => s
  | .setHost n => { s with host := n }
  | .setProcess n => { s with process := n }
  | .setThread t tid n =>
    let tid := match tid with
      | none => ident t
      | some i => i
    { s with threads := s.threads.set tid n }

/-- A sequence of events. /repo/teleprox/log/remote.py:25-57 in sequence. -/
def NamesSt.run (ident : Nat → Nat) (s : NamesSt) (es : List NamesEv) : NamesSt := es.foldl (NamesSt.step ident) s

/-- `get_thread_name(tid)` called in thread `t`; /repo/teleprox/log/remote.py:59-66. -/
def NamesSt.threadName (ident : Nat → Nat) (s : NamesSt) (t : Nat) (tid : Option Nat) : String :=
  let tid := match tid with
    | none => ident t
    | some i => i
  match s.threads.get? tid with
  | some n => n
  | none => String.ofList (defaultThreadName tid)

/-! ## Loggers -/

/-- A handler: an `RPCLogHandler`, a `LogSender` with its address, or one made by the user. `k` tells objects of one class apart.
/repo/teleprox/log/__init__.py:29, /repo/teleprox/log/stdio.py:42. -/
inductive LogHandlerObj where
  | display (k : Nat)
  | sender (k : Nat) (addr : Bytes)
  | user (k : Nat)
  deriving DecidableEq, Repr

/-- A Python logger: level (0 is unset), `propagate`, handlers and the cache of `isEnabledFor`. Used at /repo/teleprox/log/stdio.py:39-44. -/
structure PyLogger where
  level : Int := 0
  propagate : Bool := true
  handlers : List LogHandlerObj := []
  cache : Dict Int Bool := []
  deriving DecidableEq, Repr

/-- The name of a logger, split at the dots; the root logger is `[]`. Used at /repo/teleprox/log/stdio.py:39, /repo/teleprox/log/__init__.py:26. -/
abbrev LogName := List String

/-- The hooks for unhandled exceptions: Python's own, those of this package, or one of the user. /repo/teleprox/log/handler.py:127-128, 146-151. -/
inductive ExcHook where
  | builtin
  | log
  | user (k : Nat)
  deriving DecidableEq, Repr

/-- The state of logging in a process: the loggers that exist, the number of handlers made by the package, whether there is a global log server,
and the hooks. /repo/teleprox/log/handler.py:127-128, /repo/teleprox/log/remote.py:70-73, /repo/teleprox/log/__init__.py:13. -/
structure Logging where
  loggers : Dict LogName PyLogger := [([], { level := 30 })]
  made : Nat := 0
  server : Bool := false
  sysHook : ExcHook := .builtin
  threadHook : ExcHook := .builtin
  savedSys : Option ExcHook := none
  savedThread : Option ExcHook := none
  deriving DecidableEq, Repr

/-- The prefixes of a name, longest first: the logger itself, its parent, ..., the root. Used at /repo/teleprox/log/stdio.py:39. -/
def logPrefixes (n : LogName) : List LogName := (List.range (n.length + 1)).reverse.map n.take

/-- The logger and its parents: Python links a logger to its nearest ancestors that exist. Used at /repo/teleprox/log/stdio.py:39. -/
def Logging.chain (s : Logging) (n : LogName) : List PyLogger := (logPrefixes n).filterMap s.loggers.get?

/-- `logging.getLogger(name)`. Used at /repo/teleprox/log/stdio.py:39, /repo/teleprox/log/__init__.py:26, /repo/teleprox/log/handler.py:136. -/
def Logging.getLogger (s : Logging) (n : LogName) : Logging :=
  if s.loggers.has n then s else { s with loggers := s.loggers.set n {} }

/-- Change of one logger that exists. Part of /repo/teleprox/log/stdio.py:41-44. -/
def Logging.modify (s : Logging) (n : LogName) (f : PyLogger → PyLogger) : Logging :=
  match s.loggers.get? n with
  | some l => { s with loggers := s.loggers.set n (f l) }
  | none => s

/-- `logger.addHandler(h)`: not added twice. Used at /repo/teleprox/log/__init__.py:30, /repo/teleprox/log/remote.py:147. -/
def Logging.addHandler (s : Logging) (n : LogName) (h : LogHandlerObj) : Logging :=
  s.modify n fun l => if h ∈ l.handlers then l else { l with handlers := l.handlers ++ [h] }

/-- `logger.setLevel(i)`, which empties the caches of all loggers. Used at /repo/teleprox/log/__init__.py:27. -/
def Logging.setLevel (s : Logging) (n : LogName) (i : Int) : Logging :=
  let s := s.modify n fun l => { l with level := i }
  { s with loggers := s.loggers.map fun e => (e.1, { e.2 with cache := [] }) }

/-- `logger.isEnabledFor(i)` with its cache. Part of /repo/teleprox/log/stdio.py:47-48, /repo/teleprox/log/handler.py:136. Simplification: `logging.disable` is not used. -/
def Logging.isEnabledFor (s : Logging) (n : LogName) (i : Int) : Logging × Bool :=
  match s.loggers.get? n with
  | none => (s, false)
  | some l =>
    match l.cache.get? i with
    | some b => (s, b)
    | none =>
      let b := decide (effectiveLevel ((s.chain n).map PyLogger.level) ≤ i)
      ({ s with loggers := s.loggers.set n { l with cache := l.cache.set i b } }, b)

/-- Where a record goes. Part of /repo/teleprox/log/stdio.py:47-48, /repo/teleprox/log/handler.py:136. -/
inductive LogSink where
  | handler (h : LogHandlerObj)
  /-- `logging.lastResort`, when there is no handler at all -/
  | stderr
  deriving DecidableEq, Repr

/-- The handlers of `callHandlers`: those of the logger and its parents up to the first that does not propagate. Simplification: handlers
have level 0 and no filters. Part of /repo/teleprox/log/stdio.py:47-48, /repo/teleprox/log/handler.py:136. -/
def chainHandlers : List PyLogger → List LogHandlerObj
  | [] => []
  | l :: r => l.handlers ++ if l.propagate then chainHandlers r else []

/-- `logger.handle(record)` of a record of level `i`. Part of /repo/teleprox/log/stdio.py:47-48, /repo/teleprox/log/handler.py:136. -/
def Logging.handle (s : Logging) (n : LogName) (i : Int) : List LogSink :=
  match chainHandlers (s.chain n) with
  | [] => if 30 ≤ i then [.stderr] else []
  | hs => hs.map .handler

/-- `logger.log(i, ...)` of an existing logger. /repo/teleprox/log/stdio.py:47-48, /repo/teleprox/log/handler.py:136. -/
def Logging.log (s : Logging) (n : LogName) (i : Int) : Logging × List LogSink :=
  match s.isEnabledFor n i with
  | (s, true) => (s, s.handle n i)
  | (s, false) => (s, [])

/-! ## The functions of the package -/

/-- `log_exceptions()`; /repo/teleprox/log/handler.py:142-151. -/
def Logging.logExceptions (s : Logging) : Logging :=
  let s := if s.sysHook ≠ .log then { s with savedSys := some s.sysHook, sysHook := .log } else s
  if s.threadHook ≠ .log then { s with savedThread := some s.threadHook, threadHook := .log } else s

/-- Levels known by name, with those Python adds itself. `logging._nameToLevel`, used at /repo/teleprox/log/__init__.py:27. -/
def levelOfName (n : String) : Option Int :=
  if n = "CRITICAL" then some 50 else if n = "FATAL" then some 50 else if n = "ERROR" then some 40 else if n = "WARN" then some 30
  else if n = "WARNING" then some 30 else if n = "INFO" then some 20 else if n = "DEBUG" then some 10 else if n = "NOTSET" then some 0 else none

/-- `logging._checkLevel(level)`. Used at /repo/teleprox/log/__init__.py:27. -/
def checkLevel : Val → Except Exc Int
  | .int i => .ok i
  | .bool b => .ok (if b then 1 else 0)
  | .str n =>
    match levelOfName n with
    | some i => .ok i
    | none => .error .valueError
  | _ => .error .typeError

/-- `start_log_server()`; /repo/teleprox/log/remote.py:76-87. -/
def Logging.startServer (s : Logging) : Logging × Except Exc Unit :=
  if s.server then (s, .error (.other "Exception")) else ({ s with server := true }, .ok ())

/-- `logger.addHandler(RPCLogHandler())` at the root; /repo/teleprox/log/__init__.py:29-30. -/
def Logging.addDisplay (s : Logging) : Logging := Logging.addHandler { s with made := s.made + 1 } [] (.display s.made)

/-- `basic_config(log_level, exceptions, start_server)`; /repo/teleprox/log/__init__.py:14-36. -/
def Logging.basicConfig (s : Logging) (level : Val) (exceptions startServer : Bool) : Logging × Except Exc Unit :=
  let s := s.getLogger []
  match checkLevel level with
  | .error e => (s, .error e)
  | .ok i =>
    let s := (s.setLevel [] i).addDisplay
    let s := if exceptions then s.logExceptions else s
    if startServer then s.startServer else (s, .ok ())

/-- The logger of a `StdioLogSender`: named after `id(proc)`. /repo/teleprox/log/stdio.py:39. -/
def stdioName (procId : Nat) : LogName := ["teleprox", "log", "stdio", toString procId]

/-- `logger.propagate = False; LogSender(log_addr, logger)` if there is an address; /repo/teleprox/log/stdio.py:40-42, /repo/teleprox/log/remote.py:144-147. -/
def Logging.addSender (s : Logging) (n : LogName) : Option Bytes → Logging
  | none => s
  | some a =>
    let s := s.modify n fun l => { l with propagate := false }
    Logging.addHandler { s with made := s.made + 1 } n (.sender s.made a)

/-- `StdioLogSender(proc, name, log_addr, log_level)`; /repo/teleprox/log/stdio.py:34-44. The level is assigned without `setLevel`, so caches stay. -/
def Logging.stdioSender (s : Logging) (procId : Nat) (addr : Option Bytes) (level : Option Int) : Logging :=
  let n := stdioName procId
  let s := (s.getLogger n).addSender n addr
  match level with
  | none => s
  | some i => s.modify n fun l => { l with level := i }

/-- What happens to the logging of a process. /repo/teleprox/log/__init__.py:14, /repo/teleprox/log/handler.py:131, 142, /repo/teleprox/log/stdio.py:33, 47-48. -/
inductive LoggingEv where
  /-- user code: `logging.getLogger(n)` -/
  | getLogger (n : LogName)
  /-- user code: `logging.getLogger(n).setLevel(i)` -/
  | setLevel (n : LogName) (i : Int)
  /-- user code: `logging.getLogger(n).addHandler(h)` of a handler of the user -/
  | addHandler (n : LogName) (k : Nat)
  /-- user code: `logging.getLogger(n).propagate = b` -/
  | propagate (n : LogName) (b : Bool)
  /-- user code: `logging.getLogger(n).log(i, ...)` -/
  | log (n : LogName) (i : Int)
  | basicConfig (level : Val) (exceptions startServer : Bool)
  | logExceptions
  /-- user code: `sys.excepthook = h` -/
  | setSysHook (h : ExcHook)
  /-- user code: `threading.excepthook = h` -/
  | setThreadHook (h : ExcHook)
  | stdioSender (procId : Nat) (addr : Option Bytes) (level : Option Int)
  /-- the child prints a line to stdout (or stderr) -/
  | line (procId : Nat) (err : Bool)
  /-- an exception is not caught, in a thread or in the main thread -/
  | unhandled (inThread : Bool)

/-- What can be seen. /repo/teleprox/log/__init__.py:30, /repo/teleprox/log/handler.py:136, /repo/teleprox/log/stdio.py:47-48. -/
inductive LoggingOut where
  /-- a record of this level was logged by logger `n` and goes to `sinks` -/
  | record (n : LogName) (level : Int) (sinks : List LogSink)
  | raised (e : Exc)
  /-- another hook than that of the package is called -/
  | hook (h : ExcHook)
  deriving DecidableEq, Repr

/-- Logging a record and what is seen of it. Part of /repo/teleprox/log/stdio.py:47-48, /repo/teleprox/log/handler.py:136. -/
def Logging.logOut (s : Logging) (n : LogName) (i : Int) : Logging × List LoggingOut :=
  match s.log n i with
  | (s, o) => (s, [.record n i o])

/-- An unhandled exception, given the hook; /repo/teleprox/log/handler.py:131-139. -/
def Logging.unhandled (s : Logging) : ExcHook → Logging × List LoggingOut
  | .log => s.logOut [] 30
  | h => (s, [.hook h])

/-- One event. /repo/teleprox/log/__init__.py:14-36, /repo/teleprox/log/handler.py:131-151, /repo/teleprox/log/stdio.py:33-48. -/
def Logging.step (s : Logging) : LoggingEv → Logging × List LoggingOut
  | .getLogger n => (s.getLogger n, [])
  | .setLevel n i => ((s.getLogger n).setLevel n i, [])
  | .addHandler n k => ((s.getLogger n).addHandler n (.user k), [])
  | .propagate n b => ((s.getLogger n).modify n fun l => { l with propagate := b }, [])
  | .log n i => (s.getLogger n).logOut n i
  | .basicConfig level exceptions startServer =>
    match s.basicConfig level exceptions startServer with
    | (s, .ok ()) => (s, [])
    | (s, .error e) => (s, [.raised e])
  | .logExceptions => (s.logExceptions, [])
  | .setSysHook h => ({ s with sysHook := h }, [])
  | .setThreadHook h => ({ s with threadHook := h }, [])
  | .stdioSender procId addr level => (s.stdioSender procId addr level, [])
  | .line procId err => s.logOut (stdioName procId) (if err then 30 else 20)
  | .unhandled inThread => s.unhandled (if inThread then s.threadHook else s.sysHook)

/-- A sequence of events. /repo/teleprox/log/__init__.py:14-36, /repo/teleprox/log/handler.py:131-151, /repo/teleprox/log/stdio.py:33-48 in sequence. -/
def Logging.run (s : Logging) : List LoggingEv → Logging × List LoggingOut
  | [] => (s, [])
  | e :: es =>
    let (s₁, o₁) := s.step e
    let (s₂, o₂) := s₁.run es
    (s₂, o₁ ++ o₂)

/-- The text logged for an unhandled exception: the stack where it was caught, a mark, the formatted exception without its first entry.
/repo/teleprox/log/handler.py:131-136. -/
def unhandledText (stack exc : List String) : String :=
  "Unhandled exception:\n" ++ String.join ((stack ++ [" < exception caught here >\n"] ++ exc.drop 1).map ("    " ++ ·))

end Verif
