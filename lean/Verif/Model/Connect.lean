import Verif.Model.Wait
import Verif.Model.Address
/-!
# Making a connection

/repo/teleprox/client.py: `ensure_connection` and the part of `__init__` after the entry in the registry. Times are integer nanoseconds; the loop uses `time.time()`, the waits in it
`time.perf_counter()`, two clocks that need not agree.
-/
namespace Verif

/-- One turn of the loop of `ensure_connection`; /repo/teleprox/client.py:436-443. -/
structure PingTry where
  /-- the reading of `time.time()` in line 436 -/
  wall : Int
  /-- the reading of `perf_counter` with which waiting begins (line 465) -/
  start : Int
  /-- what happens while it waits (lines 466-500) -/
  turns : List Turn

/-- How `ensure_connection` ends. /repo/teleprox/client.py:428-446. -/
inductive Connecting where
  /-- it returns -/
  | established
  /-- an exception leaves it -/
  | raised (r : Result)
  /-- it raises TimeoutError in line 444, `wall` being the reading that ended the loop -/
  | gaveUp (wall : Int)
  /-- the turns given are used up while it waits -/
  | waiting
  /-- the tries given are used up, the last one having timed out -/
  | again

/-- `fut.result(timeout=0.1)`, in nanoseconds; /repo/teleprox/client.py:439. -/
def pingTimeout : Int := 100 * msec

/-- The loop of `ensure_connection`; /repo/teleprox/client.py:436-444. Returns the messages transmitted in it. The future of a try that timed out is dropped, since only the variable
`fut` holds it (line 437; it is dropped when the next future is assigned, before anything is read). `E`, `t`: the environment of `send`, not used as `ping` has no options. -/
def Cli.connect (K : Codec) (E : SendEnv) (t : Refs) (deadline : Int) : Cli → List PingTry → Cli × List (List Bytes) × Connecting
  | c, [] => (c, [], .again)
  | c, p :: ps =>
    if p.wall < deadline then
      match c.send K E t pingReq.1 pingReq.2 "auto" "async" with
      | (_, c, m, .error e) => (c, m.toList, .raised (.exc e))
      | (_, c, m, .ok (.future k)) =>
        match c.result K k p.start (some pingTimeout) p.turns with
        | (c, none, _) => (c, m.toList, .waiting)
        | (c, some (.value _), _) => (c, m.toList, .established)
        | (c, some (.exc .timeoutError), _) =>
          let (c, ms, r) := (c.drop k).connect K E t deadline ps
          (c, m.toList ++ ms, r)
        | (c, some r, _) => (c, m.toList, .raised r)
      | (_, c, m, .ok _) => (c, m.toList, .waiting)
    else (c, [], .gaveUp p.wall)

/-- `ensure_connection(timeout)` begun at `start`; /repo/teleprox/client.py:428-446. -/
def Cli.ensureConnection (K : Codec) (E : SendEnv) (t : Refs) (establishing : Bool) (start timeout : Int) (c : Cli) (ps : List PingTry) : Cli × List (List Bytes) × Connecting :=
  if establishing then (c, [], .established) else c.connect K E t (start + timeout) ps

/-! ## The constructor -/

/-- What the constructor can change for its thread: whether the thread has a server (`RPCServer.get_server()`), and whether there is a client for the address.
/repo/teleprox/client.py:113-124, 169-171. -/
structure Place where
  server : Bool
  cached : Bool
  deriving DecidableEq, Repr

/-- What happens while `__init__` runs: the result of `check_address`, whether `reentrant` is a bool, the outcome of `connect` of the socket, and how `ensure_connection` ends.
/repo/teleprox/client.py:126-168. -/
structure CtorEnv where
  address : Except Exc (Option String)
  reentrant : Bool
  zmq : Except Exc Unit
  ensure : Except Exc Unit

/-- The body of `try` in `__init__`; /repo/teleprox/client.py:126-168. -/
def CtorEnv.body (v : CtorEnv) (serializer : String) : Except Exc Unit := do
  let port ← v.address
  if port = some "closed" then throw .connectionRefused
  if v.reentrant = false then throw .assertionError
  v.zmq
  if serOf serializer = none then throw .valueError
  v.ensure

/-- `RPCClient.__init__`; /repo/teleprox/client.py:99-171. Simplification: starting the local server does not fail. -/
def Place.construct (s : Place) (v : CtorEnv) (startLocalServer : Bool) (serializer : String) : Place × Except Exc Unit :=
  let s := if startLocalServer && !s.server then { s with server := true } else s
  if s.cached then (s, .error .keyError)
  else
    match v.body serializer with
    | .ok () => ({ s with cached := true }, .ok ())
    | .error e => ({ s with cached := false }, .error e)

end Verif
