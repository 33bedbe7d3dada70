import Verif.Model.Registry
/-!
# The client a proxy uses

`ObjectProxy._client` (/repo/teleprox/proxy.py:149-153): the proxy asks `RPCClient.get_client` once and keeps the answer. Threads run concurrently; each event is one atomic step of a
thread, histories are arbitrary lists of events, and an event that is not possible at its moment changes nothing. The clients are those of `Verif.Model.Registry`.
-/
namespace Verif

/-- Where a call of `_client()` of proxy `p` is. /repo/teleprox/proxy.py:149-153. -/
inductive HoldPc where
  /-- in `get_client`, which constructs client `c`; proxy.py:152 -/
  | waiting (p c : Nat)
  /-- `get_client` has returned `c`, which is not assigned yet; proxy.py:152 -/
  | got (p c : Nat)
  /-- before `return self._client_`; proxy.py:153 -/
  | returning (p : Nat)
  deriving DecidableEq, Repr

/-- The clients, the address of each proxy, the attribute `_client_` of each, and the calls of `_client()` in progress in each thread, innermost first (while a client is constructed its
thread can carry out requests to its own server). /repo/teleprox/proxy.py:98-124, 149-153. -/
structure HoldSt where
  clients : CacheSt := {}
  addrs : List Bytes := []
  held : Nat → Option Nat := fun _ => none
  pc : Nat → List HoldPc := fun _ => []

/-- What can happen. /repo/teleprox/proxy.py:98-153. -/
inductive HoldEv where
  /-- a proxy is made for a server's address: received, copied (proxy.py:143) or as attribute of another one (proxy.py:297); its `_client_` is None -/
  | make (a : Bytes)
  /-- thread `t` calls `_client()` of proxy `p` -/
  | use (t p : Nat)
  /-- thread `t` goes on in `_client()` -/
  | go (t : Nat)
  /-- other uses of clients, and the ends of constructions -/
  | cache (e : CacheEv)
  deriving DecidableEq, Repr

/-- What can be observed. /repo/teleprox/proxy.py:149-153. -/
inductive HoldOut where
  | cache (o : CacheOut)
  /-- `_client()` of proxy `p` returns client `c` in thread `t` -/
  | uses (t p c : Nat)
  /-- `_client()` of proxy `p` raises in thread `t` -/
  | raised (t p : Nat) (e : Exc)
  deriving DecidableEq, Repr

/-- The thread of an event. For /repo/teleprox/client.py:65-171, 595-601. -/
def CacheEv.thread : CacheEv → Nat
  | .get t _ | .new t _ | .connected t | .failed t _ | .close t _ => t

/-- Whether a thread can do something else than go on in `_client()`. /repo/teleprox/proxy.py:149-153. -/
def HoldSt.free (σ : HoldSt) (t : Nat) : Bool :=
  match σ.pc t with
  | .got .. :: _ | .returning .. :: _ => false
  | _ => true

/-- `if self._client_ is None: ... RPCClient.get_client(self._rpc_addr)`; /repo/teleprox/proxy.py:150-152. -/
def HoldSt.use (σ : HoldSt) (t p : Nat) (a : Bytes) : HoldSt × List HoldOut :=
  match σ.held p with
  | some _ => ({ σ with pc := put σ.pc t (.returning p :: σ.pc t) }, [])
  | none =>
    match σ.clients.step (.get t a) with
    | (cs, [.got t' a' c]) => ({ σ with clients := cs, pc := put σ.pc t (.got p c :: σ.pc t) }, [.cache (.got t' a' c)])
    | (cs, [.began t' a' c]) => ({ σ with clients := cs, pc := put σ.pc t (.waiting p c :: σ.pc t) }, [.cache (.began t' a' c)])
    | (cs, os) => ({ σ with clients := cs }, os.map .cache)

/-- A construction has ended: the call of `_client()` that waits for it goes on. /repo/teleprox/proxy.py:152. -/
def HoldSt.ended (σ : HoldSt) : CacheOut → HoldSt × List HoldOut
  | .got t _ c =>
    match σ.pc t with
    | .waiting p c' :: r => if c' = c then ({ σ with pc := put σ.pc t (.got p c :: r) }, []) else (σ, [])
    | _ => (σ, [])
  | .broke t _ c e =>
    match σ.pc t with
    | .waiting p c' :: r => if c' = c then ({ σ with pc := put σ.pc t r }, [.raised t p e]) else (σ, [])
    | _ => (σ, [])
  | _ => (σ, [])

/-- One step; /repo/teleprox/proxy.py:98-153, /repo/teleprox/client.py:65-171, 595-601. Results of `get_client` called by other code (`.get`) concern no proxy. -/
def HoldSt.step (σ : HoldSt) : HoldEv → HoldSt × List HoldOut
  | .make a => ({ σ with addrs := σ.addrs ++ [a] }, [])
  | .use t p =>
    match σ.addrs[p]? with
    | some a => if σ.free t then σ.use t p a else (σ, [])
    | none => (σ, [])
  | .go t =>
    match σ.pc t with
    | .got p c :: r => ({ σ with held := put σ.held p (some c), pc := put σ.pc t (.returning p :: r) }, [])
    | .returning p :: r =>
      match σ.held p with
      | some c => ({ σ with pc := put σ.pc t r }, [.uses t p c])
      | none => (σ, [])
    | _ => (σ, [])
  | .cache e =>
    if σ.free e.thread then
      match σ.clients.step e with
      | (cs, os) =>
        match e, os with
        | .connected _, [o] | .failed _ _, [o] => match HoldSt.ended { σ with clients := cs } o with | (σ, o') => (σ, .cache o :: o')
        | _, os => ({ σ with clients := cs }, os.map .cache)
    else (σ, [])

/-- A history. Any interleaving of /repo/teleprox/proxy.py:98-153 and /repo/teleprox/client.py:65-171, 595-601. -/
def HoldSt.run (σ : HoldSt) : List HoldEv → HoldSt × List HoldOut
  | [] => (σ, [])
  | e :: es =>
    let (σ₁, o₁) := σ.step e
    let (σ₂, o₂) := σ₁.run es
    (σ₂, o₁ ++ o₂)

/-- `RPCServer.local_client()` in thread `t`; /repo/teleprox/server.py:127-134. `address` gives the address of each server (set before a server registers, server.py:146-148). Without a server
`srv` is None and has no `address`. -/
def localClient (reg : RegSt) (address : Nat → Bytes) (σ : CacheSt) (t : Nat) : Except Exc (CacheSt × List CacheOut) :=
  match reg.byThread.get? t with
  | none => .error .attributeError
  | some s => .ok (σ.step (.get t (address s)))

end Verif
