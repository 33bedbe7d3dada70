import Verif.Model.Client
/-!
# Several clients and a server

The clients of one server, the messages under way, and the server. Each client has its own DEALER socket with its own
identity (/repo/teleprox/client.py:134-149), the server one ROUTER socket (/repo/teleprox/server.py:137-148). ZeroMQ keeps the
messages between two sockets in order; any of the messages under way may be lost: a connection that
breaks loses them, and a ROUTER socket drops messages for a client whose queue is full. Everything happens in
single steps in any order: this includes clients in the server's own process, and messages handled while the server's
user code waits (`Verif.Model.Server`).
-/
namespace Verif

/-- The whole system. `up n` are the messages from client `n` the server has not read, `down n` those for `n` that it
has not read, oldest first. Clients are indexed by their identities.
Sockets of /repo/teleprox/server.py:137 and /repo/teleprox/client.py:134. -/
structure Sys where
  srv : Srv
  cli : Bytes → Cli
  up : Bytes → List (List Bytes)
  down : Bytes → List (Ser × Wire)

/-- A server and clients with the given serializers that have just connected.
/repo/teleprox/server.py:136-184 and /repo/teleprox/client.py:99-171. -/
def Sys.init (srv : Srv) (sers : Bytes → Ser) : Sys := ⟨srv, fun n => Cli.init n (sers n), fun _ => [], fun _ => []⟩

/-- `f` with another value at `n`. For one client's socket, /repo/teleprox/client.py:134. -/
def upd {β : Type} (f : Bytes → β) (n : Bytes) (b : β) : Bytes → β := fun m => if m = n then b else f m

/-- The messages for `n`. /repo/teleprox/server.py:343, 409. -/
def sentTo (n : Bytes) (os : List Out) : List (Ser × Wire) :=
  os.filterMap fun o => match o with
    | .send c ser w => if c = n then some (ser, w) else none
    | _ => none

/-- The messages transmitted. /repo/teleprox/client.py:303. -/
def transmitted (os : List COut) : List (List Bytes) :=
  os.filterMap fun o => match o with
    | .transmit m => some m
    | _ => none

/-- What can happen. /repo/teleprox/client.py:227, 502 and /repo/teleprox/server.py:252, 444-454. -/
inductive SEv where
  /-- client `n` makes a request -/
  | request (n : Bytes) (E : SendEnv) (t : Refs) (action : String) (opts : Option Val) (returnType sync : String)
  /-- client `n` reads its next message; a message in another format than its own is read as `junk` -/
  | deliver (n : Bytes) (P : CliEnv) (junk : Wire)
  /-- client `n` no longer holds the future of request `k` -/
  | forget (n : Bytes) (k : Nat)
  /-- client `n` closes its socket -/
  | closeClient (n : Bytes)
  /-- the server reads the next message of client `n` -/
  | serve (n : Bytes) (H : Heap)
  /-- user code in the server ends, publishes, makes a proxy -/
  | ret (H : Heap) (r : Except Exc Val)
  | publish (H : Heap) (name v : Val)
  | mkProxy (H : Heap) (v : Val) (kwds : List String)
  /-- the `i`-th of the messages under way is lost (a broken connection, a killed process, a queue that is full); several losses in a row
  take any selection of messages -/
  | loseUp (n : Bytes) (i : Nat)
  | loseDown (n : Bytes) (i : Nat)

/-- Client `n` does something; what it transmits is under way. /repo/teleprox/client.py:303. -/
def Sys.client (K : Codec) (s : Sys) (n : Bytes) (e : CEv) : Sys :=
  { s with cli := upd s.cli n ((s.cli n).step K e).1, up := upd s.up n (s.up n ++ transmitted ((s.cli n).step K e).2) }

/-- The server does something; what it sends is under way. /repo/teleprox/server.py:343, 409. -/
def Sys.server (s : Sys) (e : Ev) : Sys :=
  { s with srv := (s.srv.step e).1, down := fun n => s.down n ++ sentTo n (s.srv.step e).2 }

/-- The server takes the next message out of its socket. /repo/teleprox/server.py:240. -/
def Srv.takes (s : Srv) : Bool := !s.closed && !s.dead && s.sockOpen

/-- One step. A client with a closed socket and a server that does not serve take no message.
/repo/teleprox/client.py:227-319, 502-561 and /repo/teleprox/server.py:238-415. -/
def Sys.step (K : Codec) (s : Sys) : SEv → Sys
  | .request n E t a o rt sy => s.client K n (.send E t a o rt sy)
  | .forget n k => s.client K n (.drop k)
  | .closeClient n => s.client K n .close
  | .deliver n P junk =>
    if (s.cli n).sockOpen then
      match s.down n with
      | [] => s
      | (ser, w) :: r => { s with down := upd s.down n r }.client K n (.recv P (if ser = (s.cli n).ser then w else junk))
    else s
  | .serve n H =>
    match s.up n with
    | [] => s
    | m :: r => (if s.srv.takes then { s with up := upd s.up n r } else s).server (.recv H (n :: m))
  | .ret H r => s.server (.ret H r)
  | .publish H name v => s.server (.publish H name v)
  | .mkProxy H v kwds => s.server (.mkProxy H v kwds)
  | .loseUp n i => { s with up := upd s.up n ((s.up n).eraseIdx i) }
  | .loseDown n i => { s with down := upd s.down n ((s.down n).eraseIdx i) }

/-- A run. Any interleaving of /repo/teleprox/client.py:227-319, 502-561 and /repo/teleprox/server.py:238-415. -/
def Sys.run (K : Codec) (s : Sys) : List SEv → Sys
  | [] => s
  | e :: es => (s.step K e).run K es

end Verif
