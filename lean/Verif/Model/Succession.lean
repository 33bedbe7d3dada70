import Verif.Model.Refs
/-!
# Servers that follow one another at one address

When a server is closed or its process ends, another one may listen at the same address. A zmq DEALER socket (/repo/teleprox/client.py:132-149)
connects again by itself, so a client talks to whatever server listens there. The table of a server begins with the object id 0 and the
reference id 0 (/repo/teleprox/server.py:173-181), and a proxy in a message carries the address and these ids only
(/repo/teleprox/serializer.py:116-119, /repo/teleprox/proxy.py:121-135).
-/
namespace Verif

/-- A request, as far as it concerns the table. `made` is the number of the server that handed out the proxy; it is not part of the message.
/repo/teleprox/server.py:193-228, 364-370. -/
inductive SuccAsk where
  /-- one whose result `o` is returned by proxy; server.py:193-206 -/
  | make (o : Obj)
  /-- one with a proxy among its arguments; server.py:216-228 -/
  | use (made oid : Nat)
  /-- `delete`; server.py:364-370 -/
  | delete (made oid rid : Nat)
  deriving DecidableEq, Repr

/-- The address: the number of the last server there, whether it listens, its table, the clients it knows (/repo/teleprox/server.py:159), the
clients that have a disconnect message to read, those that have read it (`_disconnected`, /repo/teleprox/client.py:581), and the requests on
their way, with the number of the client that sent it. -/
structure SuccSt where
  gen : Nat := 0
  up : Bool := true
  table : Refs := Refs.init
  known : List Nat := []
  note : Nat → Bool := fun _ => false
  gone : Nat → Bool := fun _ => false
  queue : List (Nat × SuccAsk) := []

/-- What happens. /repo/teleprox/client.py:247-342, 559, 575-586, 595-601 and /repo/teleprox/server.py:254-312, 385-411. -/
inductive SuccEv where
  /-- client `n` sends a request; client.py:283-342 -/
  | send (n : Nat) (a : SuccAsk)
  /-- the server carries out the next request; server.py:254-312 -/
  | carry
  /-- the next request is lost with the server that had received it -/
  | lose
  /-- a server is closed: every known client is sent a message; server.py:385-411 -/
  | close
  /-- the process of a server ends without closing it -/
  | crash
  /-- another server is made; server.py:136-181 -/
  | start
  /-- client `n` reads the message; client.py:559, 575-586 -/
  | read (n : Nat)
  /-- client `n` is closed, and the thread makes another one; client.py:69-89, 99-171, 595-601 -/
  | renew (n : Nat)
  deriving DecidableEq, Repr

/-- What can be observed. Results of /repo/teleprox/client.py:283-285 and /repo/teleprox/server.py:193-228, 364-370. -/
inductive SuccOut where
  /-- `send` raised RuntimeError -/
  | refused (n : Nat)
  /-- server `g` returned a proxy for its object `o` -/
  | made (n g oid rid : Nat) (o : Obj)
  /-- a proxy handed out by server `made` with this id was resolved by server `g` to its object `o` -/
  | reached (n g made oid : Nat) (o : Obj)
  /-- a reference handed out by server `made` was released by server `g` -/
  | released (n g made oid rid : Nat)
  /-- the request raised -/
  | raised (n g : Nat) (a : SuccAsk) (e : Exc)
  deriving DecidableEq, Repr

/-- A server carries out a request. /repo/teleprox/server.py:193-228, 364-370. Simplification: of a request only what it does with the table is
kept; a request that makes a proxy for its result raises nothing. -/
def SuccSt.carry (idOf : Nat → Obj → Nat) (s : SuccSt) (n : Nat) : SuccAsk → Refs × SuccOut
  | .make o =>
    match s.table.getProxy (idOf s.gen) o with
    | (t, .ok (oid, rid)) => (t, .made n s.gen oid rid o)
    | (t, .error e) => (t, .raised n s.gen (.make o) e)
  | .use g oid =>
    match s.table.lookup oid with
    | .ok o => (s.table, .reached n s.gen g oid o)
    | .error e => (s.table, .raised n s.gen (.use g oid) e)
  | .delete g oid rid =>
    match s.table.delete (idOf s.gen) oid rid with
    | (t, .ok ()) => (t, .released n s.gen g oid rid)
    | (t, .error e) => (t, .raised n s.gen (.delete g oid rid) e)

/-- One event; those that cannot happen change nothing. `idOf g` is `id()` in the process of server `g`.
/repo/teleprox/client.py:283-285, 559, 575-586, 595-601; /repo/teleprox/server.py:136-181, 254-312, 385-411.
Simplifications: `send` looks at `_disconnected` only (client.py:283-285), so a message not yet read changes nothing; requests sent while no
server listens wait in the socket for the next one (zmq without ZMQ_IMMEDIATE); a new client can be made only while a server answers
(client.py:428-446); a proxy that has kept a closed client (`_client_`, /repo/teleprox/proxy.py:149-153) is not used; the client that
asked for the closing is told by the answer (client.py:563-568), which is a message to read like the others. -/
def SuccSt.step (idOf : Nat → Obj → Nat) (s : SuccSt) : SuccEv → SuccSt × List SuccOut
  | .send n a => if s.gone n then (s, [.refused n]) else ({ s with queue := s.queue ++ [(n, a)] }, [])
  | .carry =>
    match s.up, s.queue with
    | true, (n, a) :: q =>
      let (t, o) := s.carry idOf n a
      ({ s with table := t, queue := q, known := if n ∈ s.known then s.known else s.known ++ [n] }, [o])
    | _, _ => (s, [])
  | .lose => ({ s with queue := s.queue.tail }, [])
  | .close => if s.up then ({ s with up := false, known := [], note := fun n => s.note n || decide (n ∈ s.known) }, []) else (s, [])
  | .crash => ({ s with up := false, known := [] }, [])
  | .start => if s.up then (s, []) else ({ s with gen := s.gen + 1, up := true, table := Refs.init, known := [] }, [])
  | .read n => if s.note n then ({ s with note := fun m => if m = n then false else s.note m, gone := fun m => if m = n then true else s.gone m }, []) else (s, [])
  | .renew n =>
    if s.up then ({ s with note := fun m => if m = n then false else s.note m, gone := fun m => if m = n then false else s.gone m }, []) else (s, [])

/-- A history. Any sequence of /repo/teleprox/client.py:283-342, 559, 575-586, 595-601 and /repo/teleprox/server.py:136-181, 254-312, 385-411. -/
def SuccSt.run (idOf : Nat → Obj → Nat) (s : SuccSt) : List SuccEv → SuccSt × List SuccOut
  | [] => (s, [])
  | e :: es =>
    let (s₁, o₁) := s.step idOf e
    let (s₂, o₂) := s₁.run idOf es
    (s₂, o₁ ++ o₂)

end Verif
