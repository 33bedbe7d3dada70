import Verif.Model.Connect
/-!
# `RPCServer.close()`

/repo/teleprox/server.py:417-433: the method a thread calls to close a server, and what runs when the process exits.
-/
namespace Verif

/-- The timeout of `close_server`, in nanoseconds; /repo/teleprox/client.py:603. -/
def closeTimeout : Int := 1000 * msec

/-- How a call of `close` ends. /repo/teleprox/server.py:423-433. -/
inductive CloseEnd where
  | returned
  | raised (r : Result)
  | waiting

/-- `cli.close_server(sync='sync')`: the client, the message sent, and how it ends. /repo/teleprox/client.py:603-614, 311-319. The turns `ts` are what happens while it waits from `start` on. -/
def Cli.closeServerSync (K : Codec) (E : SendEnv) (t : Refs) (P : CliEnv) (c : Cli) (inbox : List Wire) (start : Int) (ts : List Turn) : Cli × Option (List Bytes) × CloseEnd :=
  match c.closeServer K E t P inbox "auto" "sync" with
  | (_, c, _, m, .error e) => (c, m, .raised (.exc e))
  | (_, c, _, m, .ok none) => (c, m, .returned)
  | (_, c, _, m, .ok (some (.wait k))) =>
    match c.result K k start (some closeTimeout) ts with
    | (c, none, _) => (c, m, .waiting)
    | (c, some (.value _), _) => (c, m, .returned)
    | (c, some r, _) => (c, m, .raised r)
  | (_, c, _, m, .ok (some _)) => (c, m, .returned)

/-- `RPCServer.close()` in a thread; /repo/teleprox/server.py:423-433. `client` is what `RPCClient.get_client(self.address)` gives: the client the thread has, or the one just made, or the
exception of making one. It is never None, so that the server does not act on itself (line 431 is not reached). -/
def serverClose (K : Codec) (E : SendEnv) (t : Refs) (P : CliEnv) (client : Except Exc Cli) (inbox : List Wire) (start : Int) (ts : List Turn) :
    Option Cli × Option (List Bytes) × CloseEnd :=
  match client with
  | .error e => (none, none, .raised (.exc e))
  | .ok c => let (c, m, r) := c.closeServerSync K E t P inbox start ts; (some c, m, r)

/-- `_atexit`: whether a warning is logged, and `close()`; /repo/teleprox/server.py:417-421. `_closed` is a bool. -/
def atExit (closed : Bool) (close : Option Cli × Option (List Bytes) × CloseEnd) : Bool × Option (Option Cli × Option (List Bytes) × CloseEnd) :=
  if closed ≠ true then (true, some close) else (false, none)

/-- `get_client(address)` in a thread that has this client (none) for the address; /repo/teleprox/client.py:69-89. Making a client: `Place.construct`, with the new client `c` if it succeeds. -/
def getClient (cached : Option Cli) (v : CtorEnv) (c : Cli) : Except Exc Cli :=
  match cached with
  | some c => .ok c
  | none =>
    match (Place.construct ⟨false, false⟩ v false "msgpack").2 with
    | .ok () => .ok c
    | .error e => .error e

end Verif
