import Verif.Model.LogNet
import Verif.Model.LogHandler
/-!
# From the processes that log to the lines on the stream

The process with the log server has an RPCLogHandler on its root logger. What the server reads goes to this handler, along with what the process logs itself.
-/
namespace Verif

/-- What the handler uses of a record read by the server, the `uid`-th of these; `ms` is the number of milliseconds a float of seconds stands for.
`makeLogRecord` makes a new record each time; /repo/teleprox/log/remote.py:262, /repo/teleprox/log/handler.py:77, 85, 100, 106-108. Simplification: `created`, `levelno` and
`thread` are numbers, as the logging module sets them, otherwise 0 is taken; names are texts. -/
def recordSeen (ms : Nat → Int) (uid : Nat) (d : Fields) : LogRec :=
  let str := fun k => match d.get? k with | some (.str s) => some s | _ => none
  { uid
    created := match d.get? "created" with | some (.float f) => ms f | some (.int i) => i * 1000 | _ => 0
    level := match d.get? "levelno" with | some (.int i) => i | _ => 0
    thread := match d.get? "thread" with | some (.int i) => i.toNat | _ => 0
    hostname := str "hostname", processName := str "process_name", threadName := str "thread_name" }

/-- The records the server passes to its logger in a step; /repo/teleprox/log/remote.py:265. -/
def passedIn (os : List LogNetOut) : List Fields := os.filterMap fun o => match o with | .server (.handled r) => some r | _ => none

/-- The senders with their server, the handler on the root logger of the process with the server, and how many records the server has passed on.
/repo/teleprox/log/remote.py:68-88, /repo/teleprox/log/handler.py:39-66. -/
structure LogAll where
  net : LogNetSt
  hdl : HandlerSt
  next : Nat := 0

/-- Atomic steps: of the senders, ZeroMQ and the server, or of the handler (with the records its process logs itself).
/repo/teleprox/log/remote.py:160-203, 250-266 and /repo/teleprox/log/handler.py:73-93, 119-124. -/
inductive LogAllEv where
  | net (e : LogNetEv)
  | hdl (e : HandlerEv)

/-- What can be observed. /repo/teleprox/log/remote.py:160-203, 250-266 and /repo/teleprox/log/handler.py:91, 124. -/
inductive LogAllOut where
  | net (o : LogNetOut)
  | hdl (o : LogOut)

/-- `self.logger.handle(rec)` for these records; /repo/teleprox/log/remote.py:265 with /repo/teleprox/log/handler.py:73-77. Simplification: no logger is disabled, has a filter
or stops what it hands up, and the handler takes every level. -/
def LogAll.emits (E : LogEnv) (ms : Nat → Int) (a : LogAll) : List Fields → LogAll × List LogOut
  | [] => (a, [])
  | d :: ds =>
    let (h, o₁) := a.hdl.step E (.emit (recordSeen ms a.next d))
    let (b, o₂) := LogAll.emits E ms { a with hdl := h, next := a.next + 1 } ds
    (b, o₁ ++ o₂)

/-- One atomic step; /repo/teleprox/log/remote.py:160-203, 250-266 and /repo/teleprox/log/handler.py:73-93, 119-124. -/
def LogAll.step (L : Lib) (fmt : Val → Val → Except Exc Val) (lt : Nat → Int → Bool) (E : LogEnv) (ms : Nat → Int) (a : LogAll) : LogAllEv → LogAll × List LogAllOut
  | .net e =>
    let (n, os) := a.net.step L fmt lt e
    let (b, hs) := { a with net := n }.emits E ms (passedIn os)
    (b, os.map .net ++ hs.map .hdl)
  | .hdl e =>
    let (h, os) := a.hdl.step E e
    ({ a with hdl := h }, os.map .hdl)

/-- A history. Any interleaving of /repo/teleprox/log/remote.py:160-203, 250-266 and /repo/teleprox/log/handler.py:73-93, 119-124. -/
def LogAll.run (L : Lib) (fmt : Val → Val → Except Exc Val) (lt : Nat → Int → Bool) (E : LogEnv) (ms : Nat → Int) (a : LogAll) : List LogAllEv → LogAll × List LogAllOut
  | [] => (a, [])
  | e :: es =>
    let (a₁, o₁) := a.step L fmt lt E ms e
    let (a₂, o₂) := a₁.run L fmt lt E ms es
    (a₂, o₁ ++ o₂)

/-- Senders connected to a new server, and a new handler; /repo/teleprox/log/remote.py:139-158, 237-248, /repo/teleprox/log/handler.py:53-66. -/
def LogAll.init (N : Nat → LogNames) (a : Bytes) (filter : Bool) (levels : List Int) (now : Int) : LogAll :=
  { net := LogNetSt.init N a filter levels, hdl := HandlerSt.init now }

end Verif
