import Verif.Model.Value
/-!
# The registries of servers and clients

Servers by thread (/repo/teleprox/server.py:90-125) and clients by thread and address (/repo/teleprox/client.py:65-171,
595-601). Threads, servers and clients are numbers (thread idents and object identities). Threads run concurrently: each
event below is one atomic step of one thread, and histories are arbitrary lists of events. An event that its thread
cannot do at that moment changes nothing.
-/
namespace Verif

/-! ## Servers -/

/-- Where a thread is in `register_server` / `unregister_server`. /repo/teleprox/server.py:101-125. -/
inductive RegPc where
  | idle
  /-- server.py:108-111 passed for the server, lock not yet taken -/
  | checked (s : Nat)
  /-- server.py:112-115 done, `srv._thread` not yet assigned -/
  | inserted (s : Nat)
  /-- server.py:122 has read `srv._thread` -/
  | leaving (s : Nat) (key : Option Nat)
  deriving DecidableEq, Repr

/-- `RPCServer.servers_by_thread`, each server's `_thread`, and where each thread is. /repo/teleprox/server.py:91-92, 162. -/
structure RegSt where
  byThread : Dict Nat Nat := []
  thread : Nat → Option Nat := fun _ => none
  pc : Nat → RegPc := fun _ => .idle

/-- Atomic steps of a thread. /repo/teleprox/server.py:94-125. -/
inductive RegEv where
  /-- thread `t` calls `register_server(s)` -/
  | register (t s : Nat)
  /-- thread `t` calls `unregister_server(s)` -/
  | unregister (t s : Nat)
  /-- thread `t` goes on with what it has begun -/
  | go (t : Nat)
  /-- thread `t` calls `get_server()` -/
  | get (t : Nat)
  deriving DecidableEq, Repr

/-- What can be observed. Results of /repo/teleprox/server.py:94-125. -/
inductive RegOut where
  /-- server `s` entered in the registry for thread `t` -/
  | added (t s : Nat)
  /-- server `s` removed from the registry for thread `t` -/
  | removed (t s : Nat)
  /-- `register_server(s)` in thread `t` returned or raised -/
  | registered (t s : Nat) (r : Except Exc Unit)
  /-- `unregister_server(s)` in thread `t` returned or raised -/
  | unregistered (t s : Nat) (r : Except Exc Unit)
  /-- `get_server()` in thread `t` returned -/
  | got (t : Nat) (s : Option Nat)
  deriving DecidableEq, Repr

/-- `f` with another value at `n`. Used for /repo/teleprox/server.py:116. -/
def put {β : Type} (f : Nat → β) (n : Nat) (b : β) : Nat → β := fun m => if m = n then b else f m

/-- `register_server` up to the lock; /repo/teleprox/server.py:108-111. The two reads of `srv._thread` are one step: only
thread `t` itself ever assigns `t`, so the first comparison would give the same at the second read. -/
def RegSt.register (σ : RegSt) (t s : Nat) : RegSt × List RegOut :=
  if σ.thread s = some t then (σ, [.registered t s (.ok ())])
  else if σ.thread s ≠ none then (σ, [.registered t s (.error .assertionError)])
  else ({ σ with pc := put σ.pc t (.checked s) }, [])

/-- The locked section of `register_server`; /repo/teleprox/server.py:112-115. -/
def RegSt.insert (σ : RegSt) (t s : Nat) : RegSt × List RegOut :=
  if σ.byThread.has t then ({ σ with pc := put σ.pc t .idle }, [.registered t s (.error .keyError)])
  else ({ σ with byThread := σ.byThread.set t s, pc := put σ.pc t (.inserted s) }, [.added t s])

/-- The locked section of `unregister_server`; /repo/teleprox/server.py:123-125. `None` is never a key. -/
def RegSt.leave (σ : RegSt) (t s : Nat) (key : Option Nat) : RegSt × List RegOut :=
  let σ' := { σ with pc := put σ.pc t .idle }
  match key with
  | none => (σ', [.unregistered t s (.error .keyError)])
  | some k =>
    match σ.byThread.get? k with
    | none => (σ', [.unregistered t s (.error .keyError)])
    | some s' =>
      if s' = s then ({ σ' with byThread := σ.byThread.erase k }, [.removed k s, .unregistered t s (.ok ())])
      else (σ', [.unregistered t s (.error .assertionError)])

/-- One atomic step; /repo/teleprox/server.py:95-125. -/
def RegSt.step (σ : RegSt) : RegEv → RegSt × List RegOut
  | .register t s => if σ.pc t = .idle then σ.register t s else (σ, [])
  | .unregister t s =>
    if σ.pc t = .idle then ({ σ with pc := put σ.pc t (.leaving s (σ.thread s)) }, []) else (σ, [])
  | .go t =>
    match σ.pc t with
    | .idle => (σ, [])
    | .checked s => σ.insert t s
    | .inserted s =>
      ({ σ with thread := put σ.thread s (some t), pc := put σ.pc t .idle }, [.registered t s (.ok ())])
    | .leaving s key => σ.leave t s key
  | .get t => if σ.pc t = .idle then (σ, [.got t (σ.byThread.get? t)]) else (σ, [])

/-- A history. Any interleaving of /repo/teleprox/server.py:94-125. -/
def RegSt.run (σ : RegSt) : List RegEv → RegSt × List RegOut
  | [] => (σ, [])
  | e :: es =>
    let (σ₁, o₁) := σ.step e
    let (σ₂, o₂) := σ₁.run es
    (σ₂, o₁ ++ o₂)

/-! ## Clients -/

/-- `RPCClient.clients_by_thread`, the clients created so far (thread and address of each), and for each thread the
clients it is constructing, innermost first: while a thread waits for the first answer of a new client
(/repo/teleprox/client.py:168, 428-446) it can carry out requests to its own server, whose user code may use clients. -/
structure CacheSt where
  cache : Dict (Nat × Bytes) Nat := []
  made : List (Nat × Bytes) := []
  building : Nat → List Nat := fun _ => []

/-- Steps of a thread. Between looking a key up and inserting it no other step matters, because all keys of a thread are
looked up, inserted and removed by that thread only (client.py:81, 95, 119 use the current thread's ident); so lookup and
insertion are one step. Addresses are the encoded ones (client.py:79-80, 100-101), the keys of the dictionary. -/
inductive CacheEv where
  /-- thread `t` calls `RPCClient.get_client(a)` -/
  | get (t : Nat) (a : Bytes)
  /-- thread `t` calls `RPCClient(a)` -/
  | new (t : Nat) (a : Bytes)
  /-- the innermost client construction of thread `t` completes -/
  | connected (t : Nat)
  /-- the innermost client construction of thread `t` raises -/
  | failed (t : Nat) (e : Exc)
  /-- thread `t` calls `c.close()` -/
  | close (t : Nat) (c : Nat)
  deriving DecidableEq, Repr

/-- What can be observed. Results of /repo/teleprox/client.py:65-171, 595-601. -/
inductive CacheOut where
  /-- `get_client(a)` or `RPCClient(a)` in thread `t` returned client `c` -/
  | got (t : Nat) (a : Bytes) (c : Nat)
  /-- the construction of client `c` began -/
  | began (t : Nat) (a : Bytes) (c : Nat)
  /-- the construction of client `c` raised -/
  | broke (t : Nat) (a : Bytes) (c : Nat) (e : Exc)
  /-- `RPCClient(a)` raised without making a client -/
  | refused (t : Nat) (a : Bytes) (e : Exc)
  /-- client `c` closed by thread `t` -/
  | closed (t : Nat) (c : Nat)
  deriving DecidableEq, Repr

/-- `RPCClient.__init__` up to the insertion; /repo/teleprox/client.py:99-124. -/
def CacheSt.new (σ : CacheSt) (t : Nat) (a : Bytes) : CacheSt × List CacheOut :=
  if σ.cache.has (t, a) then (σ, [.refused t a .keyError])
  else
    let c := σ.made.length
    ({ cache := σ.cache.set (t, a) c, made := σ.made ++ [(t, a)], building := put σ.building t (c :: σ.building t) },
      [.began t a c])

/-- One step; /repo/teleprox/client.py:69-97, 99-171, 595-601. -/
def CacheSt.step (σ : CacheSt) : CacheEv → CacheSt × List CacheOut
  | .get t a =>
    match σ.cache.get? (t, a) with
    | some c => (σ, [.got t a c])
    | none => σ.new t a
  | .new t a => σ.new t a
  | .connected t =>
    match σ.building t with
    | [] => (σ, [])
    | c :: r =>
      match σ.made[c]? with
      | some (_, a) => ({ σ with building := put σ.building t r }, [.got t a c])
      | none => (σ, [])
  | .failed t e =>
    match σ.building t with
    | [] => (σ, [])
    | c :: r =>
      match σ.made[c]? with
      | some (_, a) =>
        ({ σ with cache := σ.cache.erase (t, a), building := put σ.building t r }, [.broke t a c e])
      | none => (σ, [])
  | .close t c =>
    match σ.made[c]? with
    | some (_, a) => ({ σ with cache := σ.cache.erase (t, a) }, [.closed t c])
    | none => (σ, [])

/-- A history. Any interleaving of /repo/teleprox/client.py:65-171, 595-601. -/
def CacheSt.run (σ : CacheSt) : List CacheEv → CacheSt × List CacheOut
  | [] => (σ, [])
  | e :: es =>
    let (σ₁, o₁) := σ.step e
    let (σ₂, o₂) := σ₁.run es
    (σ₂, o₁ ++ o₂)

end Verif
