import Verif.Model.Qt
/-!
# The Qt server

/repo/teleprox/qt_server.py: `QtRPCServer` is a server (`Verif.Model.Server`) whose requests come through the relay of `Verif.Model.Qt` and whose messages leave through it. Its
methods run in the Qt thread: `_process_one` is a slot that the event loop calls for each signal, also while earlier user code calls `processEvents` (which a waiting client does,
/repo/teleprox/client.py:483). Events are atomic steps of the poll thread and of the Qt thread, in any order; an event that is not possible at its moment changes nothing.
-/
namespace Verif

/-- A Qt server; /repo/teleprox/qt_server.py:53-59. `hasApp`: there is a QApplication; `quit`: its `quit()` was called; `left`: its event loop has ended.
Simplification: an exception that leaves a slot does not end the loop (as with the hooks of /repo/teleprox/log/handler.py:142-151), so `srv.dead` means nothing here. -/
structure QtSrv where
  srv : Srv
  relay : RelaySt := {}
  quitOnClose : Bool := true
  hasApp : Bool := true
  quit : Bool := false
  left : Bool := false

/-- The messages in a list of observations. /repo/teleprox/qt_poll_thread.py:34-36: the server's socket is the other end of the relay's return socket. -/
def sendsOf (os : List Out) : List (Bytes × Wire) := os.filterMap fun | .send c _ w => some (c, w) | _ => none

/-- The end of `_process_one` of a Qt server: `_final_close` only waits, so no socket is closed; /repo/teleprox/server.py:298-323, /repo/teleprox/qt_server.py:81-85. -/
def QtSrv.finish (H : Heap) (q : QtSrv) (caller : Bytes) (m : Msg) (r : Except Exc Val) : QtSrv × List Out :=
  let (s, o) := q.srv.finish H caller m.reqId m.returnType false r
  ({ q with srv := s }, o)

/-- `process_action` of a Qt server for the action `close`; /repo/teleprox/qt_server.py:68-79, /repo/teleprox/server.py:390-411. -/
def QtSrv.closeAction (q : QtSrv) (caller : Bytes) : QtSrv × List Out × Except Exc Val :=
  if q.quitOnClose && !q.hasApp then (q, [], .error .attributeError)
  else
    let (s, o, r) := q.srv.closeAction caller
    ({ q with srv := s, quit := q.quit || q.quitOnClose }, o, r)

/-- `_process_one` of a Qt server; /repo/teleprox/server.py:262-323 with /repo/teleprox/qt_server.py:68-85. Actions other than `close` are those of any server. -/
def QtSrv.process (H : Heap) (q : QtSrv) (caller : Bytes) (m : Msg) : QtSrv × List Out :=
  if m.action = "close" then
    let q := { q with srv := { q.srv with clients := q.srv.clients.set caller m.serType } }
    match serOf m.serType with
    | none => q.finish H caller m (.error .valueError)
    | some ser =>
      match H.utf8 caller with
      | none => q.finish H caller m (.error .unicodeError)
      | some _ =>
        match (if m.opts = [] then .ok .none else do ser.loads (q.srv.recvEnv H) (← H.parse ser m.opts)) with
        | .error e => q.finish H caller m (.error e)
        | .ok _ =>
          let (q, o, r) := q.closeAction caller
          let (q, o') := q.finish H caller m r
          (q, o ++ o')
  else
    let (s, o) := q.srv.process H caller m
    ({ q with srv := s }, o)

/-- What can happen to a Qt server. /repo/teleprox/qt_poll_thread.py:40-70 and /repo/teleprox/qt_server.py:61-85. -/
inductive QtSrvEv where
  /-- a message arrives at the RPC socket -/
  | arrive (parts : List Bytes)
  /-- the poll thread makes a step -/
  | go (H : Heap)
  /-- the event loop, or `processEvents`, delivers the oldest signal -/
  | deliver (H : Heap)
  /-- the Qt thread's own code: user code ends, names are published, proxies made -/
  | own (e : Ev)
  /-- the event loop notices `quit()` and ends -/
  | leave

/-- What can be observed of a Qt server: what its methods do, and what the poll thread sends to clients. /repo/teleprox/qt_poll_thread.py:56, /repo/teleprox/server.py:262-343. -/
inductive QtOut where
  | srv (o : Out)
  | net (to : Bytes) (w : Wire)

/-- The Qt thread's methods did something: their messages go into the relay; /repo/teleprox/qt_poll_thread.py:34-36. -/
def QtSrv.post (x : QtSrv × List Out) : QtSrv × List QtOut :=
  ({ x.1 with relay := { x.1.relay with ret := x.1.relay.ret ++ sendsOf x.2 } }, x.2.map .srv)

/-- What the relay sends. /repo/teleprox/qt_poll_thread.py:56. -/
def netOf (os : List RelayOut) : List QtOut := os.filterMap fun | .sent n d => some (.net n d) | _ => none

/-- A signal is delivered: `_process_one(name, msg)`; /repo/teleprox/qt_poll_thread.py:38, /repo/teleprox/server.py:262-323. -/
def QtSrv.deliver (H : Heap) (q : QtSrv) : QtSrv × List QtOut :=
  match q.relay.signals with
  | [] => (q, [])
  | (name, msg) :: r =>
    let (q, o) := QtSrv.process H { q with relay := { q.relay with signals := r } } name msg
    QtSrv.post (q, .accept name msg.reqId msg.action msg.serType :: o)

/-- One event. The relay steps are those of `RelaySt.step`; /repo/teleprox/qt_poll_thread.py:40-70, /repo/teleprox/qt_server.py:61-85. -/
def QtSrv.step (q : QtSrv) : QtSrvEv → QtSrv × List QtOut
  | .arrive parts => ({ q with relay := { q.relay with rpc := q.relay.rpc ++ [parts] } }, [])
  | .go H =>
    let (r, o) := q.relay.go H
    ({ q with relay := r }, netOf o)
  | .deliver H => if q.left then (q, []) else q.deliver H
  | .own e =>
    match e with
    | .recv _ _ => (q, [])
    | e =>
      let (s, o) := q.srv.step e
      QtSrv.post ({ q with srv := s }, o)
  | .leave => ({ q with left := q.left || (q.quit && q.srv.stack.isEmpty) }, [])

/-- A history. Any interleaving of /repo/teleprox/qt_poll_thread.py:40-70 and /repo/teleprox/qt_server.py:61-85. -/
def QtSrv.run (q : QtSrv) : List QtSrvEv → QtSrv × List QtOut
  | [] => (q, [])
  | e :: es =>
    let (q, o) := q.step e
    let (q, o') := q.run es
    (q, o ++ o')

/-- A Qt server that was just started; /repo/teleprox/qt_server.py:53-66. -/
def QtSrv.init (addr : String) (tys : List Ty) (self : Val) (quitOnClose hasApp : Bool) : QtSrv :=
  { srv := Srv.init addr tys self, quitOnClose := quitOnClose, hasApp := hasApp }

end Verif
