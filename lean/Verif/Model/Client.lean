import Verif.Model.Server
/-!
# The RPC client

/repo/teleprox/client.py: the part of `RPCClient` between its connection and its end. Registration of clients,
`check_address` and the poller are modelled elsewhere (`Verif.Model.Registry`, `Verif.Model.Address`,
`Verif.Model.Wait`).
-/
namespace Verif

/-- How text, numbers and message trees become bytes: `str.encode()`, `str(i).encode()`, and the output of the
serializer libraries. Used at /repo/teleprox/client.py:299-302 and /repo/teleprox/server.py:342. -/
structure Codec where
  text : String → Bytes
  num : Int → Bytes
  tree : Ser → Wire → Bytes

/-- `Ser.name`: `serializer.type`; /repo/teleprox/serializer.py:233, 268. -/
def Ser.name : Ser → String
  | .msgpack => "msgpack"
  | .json => "json"

/-- The state of a future as its holder sees it; /repo/teleprox/client.py:647-677. -/
inductive Fut where
  | pending
  /-- `set_result(v)` -/
  | value (v : Val)
  /-- `set_exception(RemoteCallException(type_str, tb_str))` -/
  | remote (typeStr tb : Val)
  /-- `set_exception(RuntimeError(...))` of a disconnected client -/
  | gone
  deriving Inhabited

/-- The texts of an iterable; `none` if an item is no str. Used by `''.join`, /repo/teleprox/client.py:643. -/
def strItems : List Val → Option (List String)
  | [] => some []
  | .str x :: l => (strItems l).map (x :: ·)
  | _ :: _ => none

/-- `str(exc)` of a `RemoteCallException` with this `tb_str`; /repo/teleprox/client.py:637-644. Simplification: besides lists, tuples and texts no other
iterables. -/
def remoteText (tb : Val) : Except Exc String :=
  match tb with
  | .list l | .tuple l =>
    match strItems l with
    | some xs => .ok ("\n===> Remote exception was:\n" ++ String.join xs)
    | none => .error .typeError
  | .str x => .ok ("\n===> Remote exception was:\n" ++ x)
  | _ => .error .typeError

/-- A connected client; /repo/teleprox/client.py:99-171. `table` is `self.futures` with a flag telling whether
the future belongs to a close request (and has the done-callback `_close_request_returned`); it is a
`WeakValueDictionary`, so futures nobody holds disappear from it. `futs` are the future objects somebody holds.
Simplification: no other done-callbacks, and nobody sets results of futures by hand. -/
structure Cli where
  name : Bytes
  ser : Ser
  nextId : Nat
  table : Dict Nat Bool
  futs : Dict Nat Fut
  disconnected : Bool
  sockOpen : Bool

/-- After `self._socket.connect` in `__init__`. /repo/teleprox/client.py:134-158. -/
def Cli.init (name : Bytes) (ser : Ser) : Cli := ⟨name, ser, 0, [], [], false, true⟩

/-- What `send` returns. /repo/teleprox/client.py:305-319. -/
inductive Sent where
  /-- sync 'off' -/
  | nothing
  /-- sync 'async': the future -/
  | future (k : Nat)
  /-- sync 'sync': the caller waits for the future's result -/
  | wait (k : Nat)
  deriving DecidableEq, Repr

/-- `send`; /repo/teleprox/client.py:283-319. Returns the local server's table (serializing may create proxies),
the client, the message transmitted, and the result. When the sync mode is not known the future just made is dropped. -/
def Cli.send (K : Codec) (E : SendEnv) (t : Refs) (c : Cli) (action : String) (opts : Option Val) (returnType sync : String) :
    Refs × Cli × Option (List Bytes) × Except Exc Sent :=
  if c.disconnected then (t, c, none, .error .runtimeError)
  else
    let (c, reqId) : Cli × Int := if sync = "off" then (c, -1) else ({ c with nextId := c.nextId + 1 }, c.nextId)
    let (t, b) : Refs × Except Exc Bytes := match opts with
      | none => (t, .ok [])
      | some v => match c.ser.dumps E t v with
        | (t, .ok w) => (t, .ok (K.tree c.ser w))
        | (t, .error e) => (t, .error e)
    match b with
    | .error e => (t, c, none, .error e)
    | .ok b =>
      if c.sockOpen = false then (t, c, none, .error .zmqError)
      else
        let msg := [K.num reqId, K.text action, K.text returnType, K.text c.ser.name, b]
        if sync = "off" then (t, c, some msg, .ok .nothing)
        else
          let k := c.nextId - 1
          let c' := { c with table := c.table.set k (decide (action = "close")), futs := c.futs.set k .pending }
          if sync = "async" then (t, c', some msg, .ok (.future k))
          else if sync = "sync" then (t, c', some msg, .ok (.wait k))
          else (t, c, some msg, .error .valueError)

/-- `_server_disconnected`; /repo/teleprox/client.py:575-586. The callbacks of pending close requests find the client
disconnected and do nothing (lines 569-573). -/
def Cli.serverDisconnected (c : Cli) : Cli :=
  { c with disconnected := true, table := [], futs := c.table.foldl (fun f e => f.set e.1 .gone) c.futs }

/-- The number a message's `req_id` equals as a dictionary key; `other` for values that are no int.
/repo/teleprox/client.py:549-550. -/
def reqKey (other : Val → Except Exc (Option Int)) : Val → Except Exc (Option Int)
  | .int i => .ok (some i)
  | v => other v

/-- What the client's process contributes when a message is processed: reading it, hashing a `req_id` that is no
int, and `RemoteCallException(*error)` for errors that are not pairs. /repo/teleprox/client.py:525, 550, 554. -/
structure CliEnv where
  recv : RecvEnv
  other : Val → Except Exc (Option Int)
  unpack : Val → Except Exc (Val × Val)

/-- `*msg['error']` as two arguments; /repo/teleprox/client.py:554. -/
def unpack2 (other : Val → Except Exc (Val × Val)) : Val → Except Exc (Val × Val)
  | .tuple [a, b] => .ok (a, b)
  | .list [a, b] => .ok (a, b)
  | .tuple _ => .error .typeError
  | .list _ => .error .typeError
  | v => other v

/-- `d[k]`. Used at /repo/teleprox/client.py:548-561. -/
def field (d : List (Val × Val)) (k : String) : Except Exc Val :=
  match lookupStr d k with
  | some v => .ok v
  | none => .error .keyError

/-- `process_msg`; /repo/teleprox/client.py:539-561, with the callback of close requests, /repo/teleprox/client.py:563-573. The printing of
the message in line 547 is in `Verif.Model.Printing`. Simplification: a message that is no dict raises `AttributeError` (msg.get, line 546). -/
def Cli.processMsg (P : CliEnv) (c : Cli) (msg : Val) : Cli × Except Exc Unit :=
  match msg with
  | .dict d =>
    match field d "action" with
    | .error e => (c, .error e)
    | .ok (.str "return") =>
      match (do reqKey P.other (← field d "req_id")) with
      | .error e => (c, .error e)
      | .ok none => (c, .ok ())
      | .ok (some i) =>
        if i < 0 then (c, .ok ())
        else
          let k := i.toNat
          match c.table.get? k with
          | none => (c, .ok ())
          | some close =>
            let c := { c with table := c.table.erase k }
            match field d "error" with
            | .error e => (c, .error e)
            | .ok .none =>
              match field d "rval" with
              | .error e => (c, .error e)
              | .ok v =>
                let c := { c with futs := c.futs.set k (.value v) }
                match close, v with
                | true, .bool true => (c.serverDisconnected, .ok ())
                | _, _ => (c, .ok ())
            | .ok err =>
              match unpack2 P.unpack err with
              | .error e => (c, .error e)
              | .ok (a, b) => ({ c with futs := c.futs.set k (.remote a b) }, .ok ())
    | .ok (.str "disconnect") => (c.serverDisconnected, .ok ())
    | .ok _ => (c, .error .valueError)
  | _ => (c, .error .attributeError)

/-- `_read_and_process_one` with a message in the socket; /repo/teleprox/client.py:519-529. A message that cannot be read is
gone. -/
def Cli.receive (P : CliEnv) (c : Cli) (w : Wire) : Cli × Except Exc Unit :=
  if c.sockOpen = false then (c, .error .zmqError)
  else match c.ser.loads P.recv w with
    | .error e => (c, .error e)
    | .ok msg => c.processMsg P msg

/-- `_read_and_process_all` with these messages in the socket: stops at the first exception and returns what is left;
/repo/teleprox/client.py:531-537. -/
def Cli.receiveAll (P : CliEnv) (c : Cli) : List Wire → Cli × List Wire × Except Exc Unit
  | [] => if c.sockOpen = false then (c, [], .error .zmqError) else (c, [], .ok ())
  | w :: ws =>
    match c.receive P w with
    | (c, .ok ()) => c.receiveAll P ws
    | (c, .error .timeoutError) => (c, ws, .ok ())
    | (c, .error e) => (c, ws, .error e)

/-- `disconnected()` with these messages in the socket; /repo/teleprox/client.py:213-225. -/
def Cli.checkDisconnected (P : CliEnv) (c : Cli) (inbox : List Wire) : Cli × List Wire × Except Exc Bool :=
  if c.disconnected then (c, inbox, .ok true)
  else
    match c.receiveAll P inbox with
    | (c, ws, .ok ()) => (c, ws, .ok c.disconnected)
    | (c, ws, .error .zmqError) => ({ c with disconnected := true }, ws, .ok true)
    | (c, ws, .error e) => (c, ws, .error e)

/-- `close_server` with these messages in the socket; /repo/teleprox/client.py:603-614. -/
def Cli.closeServer (K : Codec) (E : SendEnv) (t : Refs) (P : CliEnv) (c : Cli) (inbox : List Wire) (returnType sync : String) :
    Refs × Cli × List Wire × Option (List Bytes) × Except Exc (Option Sent) :=
  match c.checkDisconnected P inbox with
  | (c, ws, .error e) => (t, c, ws, none, .error e)
  | (c, ws, .ok true) => (t, c, ws, none, .ok none)
  | (c, ws, .ok false) =>
    match c.send K E t "close" none returnType sync with
    | (t, c, m, .ok r) => (t, c, ws, m, .ok (some r))
    | (t, c, m, .error e) => (t, c, ws, m, .error e)

/-- The collection of a future nobody holds. /repo/teleprox/client.py:151 (`futures` is a WeakValueDictionary). -/
def Cli.drop (c : Cli) (k : Nat) : Cli := { c with table := c.table.erase k, futs := c.futs.erase k }

/-- `Future.done()`: inherited from `concurrent.futures.Future`; it looks at the future only.
/repo/teleprox/client.py:647 (class `Future` does not override it). -/
def Cli.done (c : Cli) (k : Nat) : Bool :=
  match c.futs.get? k with
  | some .pending => false
  | some _ => true
  | none => false

/-- `close`; /repo/teleprox/client.py:595-601. -/
def Cli.close (c : Cli) : Cli := { c with sockOpen := false }

/-! ## What the client's methods ask for -/

/-- A request: action and options. Arguments of `send`, /repo/teleprox/client.py:227. -/
abbrev Request := String × Option Val

/-- `call_obj`; /repo/teleprox/client.py:321-336. -/
def callObjReq (obj args kwargs : Val) : Request :=
  ("call_obj", some (.dict [(.str "obj", obj), (.str "args", args), (.str "kwargs", kwargs)]))
/-- `get_obj` and `transfer`; /repo/teleprox/client.py:338-364. -/
def getObjReq (obj : Val) : Request := ("get_obj", some (.dict [(.str "obj", obj)]))
/-- `_import`; /repo/teleprox/client.py:366-376. -/
def importReq (module : Val) : Request := ("import", some (.dict [(.str "module", module)]))
/-- `delete`; /repo/teleprox/client.py:405-406. -/
def deleteReq (p : Proxy) : Request := ("delete", some (.dict [(.str "obj_id", .int p.oid), (.str "ref_id", .int p.rid)]))
/-- `__getitem__`; /repo/teleprox/client.py:408-415. -/
def getItemReq (name : Val) : Request := ("get_item", some (.dict [(.str "name", name)]))
/-- `__setitem__`; /repo/teleprox/client.py:417-426. -/
def setItemReq (name obj : Val) : Request := ("set_item", some (.dict [(.str "name", name), (.str "obj", obj)]))
/-- `ping`; /repo/teleprox/client.py:588-593. -/
def pingReq : Request := ("ping", none)
/-- `close_server`; /repo/teleprox/client.py:603-614 (it sends nothing and returns True if `disconnected()`). -/
def closeReq : Request := ("close", none)

/-! ## Histories -/

/-- What can happen to a client. The calls of /repo/teleprox/client.py:227, 502, 595. -/
inductive CEv where
  /-- a request in an environment `E` with local table `t` -/
  | send (E : SendEnv) (t : Refs) (action : String) (opts : Option Val) (returnType sync : String)
  /-- a message is read -/
  | recv (P : CliEnv) (w : Wire)
  /-- a future is collected -/
  | drop (k : Nat)
  /-- the client is closed -/
  | close

/-- What can be observed of a client. Results of /repo/teleprox/client.py:227-319, 502-529. -/
inductive COut where
  /-- a message was transmitted -/
  | transmit (msg : List Bytes)
  /-- a call returned or raised -/
  | sent (r : Except Exc Sent)
  /-- processing a message ended -/
  | got (r : Except Exc Unit)

/-- One step. /repo/teleprox/client.py:227-319, 502-561, 595-601. -/
def Cli.step (K : Codec) (c : Cli) : CEv → Cli × List COut
  | .send E t a o rt sy =>
    let (_, c, m, r) := c.send K E t a o rt sy
    (c, (m.map COut.transmit).toList ++ [.sent r])
  | .recv P w => let (c, r) := c.receive P w; (c, [.got r])
  | .drop k => (c.drop k, [])
  | .close => (c.close, [])

/-- A run. Calls in sequence; /repo/teleprox/client.py:28-29 (a client is used from one thread). -/
def Cli.run (K : Codec) (c : Cli) : List CEv → Cli × List COut
  | [] => (c, [])
  | e :: es =>
    let (c1, o1) := c.step K e
    let (c2, o2) := c1.run K es
    (c2, o1 ++ o2)

end Verif
