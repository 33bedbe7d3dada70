import Verif.Model.Serializer
import Verif.Model.Unwrap
/-!
# The RPC server

/repo/teleprox/server.py. `RPCServer` handles one message at a time, but while the code it invokes waits on another
server the same thread may read and handle further messages (client.py:490-500). The server is therefore a stack
machine: a message is read (`recv`), it may start user code (a frame is pushed), and user code ends (`ret`).
Everything the server itself does between these points is one step.
-/
namespace Verif

/-- The two serializers, registered under the names 'msgpack' and 'json'; /repo/teleprox/serializer.py:261-262, 265-268, 325.
Simplification: msgpack is installed. -/
inductive Ser where
  | msgpack | json
  deriving DecidableEq, Repr

/-- `self._serializers[name]`; /repo/teleprox/server.py:151-155. -/
def serOf : String → Option Ser
  | "msgpack" => some .msgpack
  | "json" => some .json
  | _ => none

/-- A namespace key: equal strings are equal keys; other hashable values are classified by the oracle
`Heap.hash`. /repo/teleprox/server.py:230-236. -/
inductive Key where
  | str (s : String)
  | other (n : Nat)
  deriving DecidableEq, Repr

/-- What the server's process contributes while one step runs; it may differ from step to step.
Used at /repo/teleprox/server.py:226, 262-415. -/
structure Heap where
  lib : Lib
  /-- `bytes.decode()`, `int(bytes)` -/
  utf8 : Bytes → Option String
  intOf : Bytes → Option Int
  /-- reading the bytes of a message -/
  parse : Ser → Bytes → Except Exc Wire
  /-- `id()`, identity and class name of objects -/
  idOf : Obj → Nat
  ident : Val → Obj
  typeStr : Val → String
  view : Obj → Val
  ga : GetAttr
  /-- hash class of a value that is not exactly a str, or `TypeError` -/
  hash : Val → Except Exc Key
  /-- the natural number a value that is no int equals as a dict key, if any, or `TypeError` -/
  numKey : Val → Except Exc (Option Nat)
  /-- `v[k]`, `v.get(k, d)` and `len(v)` for values that are not plain dicts (or lists, tuples for `len`) -/
  getitem : Val → String → Except Exc Val
  getdef : Val → String → Val → Except Exc Val
  len : Val → Except Exc Nat
  /-- evaluating `len(fnargs)` and `fnargs[1:]` for values other than lists and tuples -/
  slice : Val → Except Exc Unit
  /-- the texts of `traceback.format_stack` and `traceback.format_exception`, and whether they contain lone surrogates -/
  stackText : List String
  tb : List String
  tbBad : Bool
  /-- the object `map(f, l)` -/
  mapObj : Val

/-- A message after `_read_one`; /repo/teleprox/server.py:243-249. -/
structure Msg where
  reqId : Int
  action : String
  returnType : String
  serType : String
  opts : Bytes
  deriving DecidableEq, Repr

/-- `_read_one`; /repo/teleprox/server.py:238-250. -/
def readOne (H : Heap) : List Bytes → Except Exc (Bytes × Msg)
  | [name, rid, action, rt, st, opts] =>
    match H.intOf rid with
    | none => .error .valueError
    | some i =>
      match H.utf8 action, H.utf8 rt, H.utf8 st with
      | some a, some r, some s => .ok (name, ⟨i, a, r, s, opts⟩)
      | _, _, _ => .error .unicodeError
  | _ => .error .valueError

/-- What a suspended request was doing. /repo/teleprox/server.py:262-323. -/
inductive Task where
  /-- `obj(*fnargs)`; when it raises, the log call may raise `mask` instead -/
  | call (mask : Option Exc)
  /-- `obj(*fnargs, **fnkwds)` -/
  | callKw
  /-- `__import__(name, fromlist)` -/
  | imp (name : String) (fromlist : Val)

/-- A request whose user code is running. /repo/teleprox/server.py:262-323 in progress. -/
structure Frame where
  caller : Bytes
  reqId : Int
  returnType : String
  task : Task

/-- Things that can be observed of a server. Effects of /repo/teleprox/server.py:262-343, 435-437. -/
inductive Out where
  /-- a message was read and its processing starts -/
  | accept (caller : Bytes) (reqId : Int) (action serType : String)
  /-- bytes for a client: the message tree in the given serializer's format -/
  | send (to : Bytes) (ser : Ser) (w : Wire)
  /-- user code is invoked -/
  | invoke (obj args kwds : Val)
  | importing (name : String) (fromlist : Val)
  /-- `sys.excepthook` -/
  | hook (e : Exc)
  /-- processing of the message ended; `raised` if by an exception nobody in the server caught -/
  | done (caller : Bytes) (reqId : Int) (raised : Option Exc)
  /-- reading a message raised -/
  | badRead (e : Exc)

/-- The server; /repo/teleprox/server.py:136-184. `registered`: this server is in `servers_by_thread`;
`sockOpen`: `_final_close` was not called; `dead`: an exception left `run_forever`. -/
structure Srv where
  addr : String
  tys : List Ty
  refs : Refs
  ns : Dict Key Val
  clients : Dict Bytes String
  closed : Bool
  registered : Bool
  sockOpen : Bool
  dead : Bool
  stack : List Frame

/-- A server that entered `run_forever`; `self` is the server object; /repo/teleprox/server.py:136-184, 444-451. -/
def Srv.init (addr : String) (tys : List Ty) (self : Val) : Srv :=
  ⟨addr, effTypes tys, Refs.init, [(.str "self", self)], [], false, true, true, false, []⟩

/-- The environment for serializing with this server; /repo/teleprox/server.py:342. -/
def Srv.sendEnv (H : Heap) (s : Srv) : SendEnv := ⟨H.lib, some s.addr, H.idOf, H.ident, H.typeStr, s.tys⟩

/-- The environment for reading messages with this server; /repo/teleprox/server.py:290. -/
def Srv.recvEnv (H : Heap) (s : Srv) : RecvEnv := ⟨H.lib, some (s.addr, s.refs.unwrap H.view H.ga)⟩

/-- `serializer.dumps`. /repo/teleprox/serializer.py:239-244, 283-286, used at /repo/teleprox/server.py:342. -/
def Ser.dumps (ser : Ser) (E : SendEnv) (t : Refs) (v : Val) : Refs × Except Exc Wire :=
  match ser with
  | .msgpack => msgpackDumps E t v
  | .json => jsonDumps E t v

/-- `serializer.loads` of a parsed message. /repo/teleprox/serializer.py:246-259, 288-291, used at /repo/teleprox/server.py:290. -/
def Ser.loads (ser : Ser) (R : RecvEnv) (w : Wire) : Except Exc Val :=
  match ser with
  | .msgpack => msgpackLoads R w
  | .json => jsonLoads R w

/-- The dict sent as reply; /repo/teleprox/server.py:333-334. -/
def replyDict (reqId : Int) (rval error : Val) : Val :=
  .dict [(.str "action", .str "return"), (.str "req_id", .int reqId), (.str "rval", rval), (.str "error", error)]

/-- `_send_result`; /repo/teleprox/server.py:332-343. `bad`: some text in the message has lone surrogates, which
msgpack refuses and JSON escapes. -/
def Srv.sendResult (H : Heap) (s : Srv) (caller : Bytes) (reqId : Int) (rval error : Val) (bad : Bool := false) :
    Srv × Except Exc (List Out) :=
  match H.utf8 caller with
  | none => (s, .error .unicodeError)
  | some _ =>
    match (s.clients.get? caller).bind serOf with
    | none => (s, .error .keyError)
    | some ser =>
      if bad = true ∧ ser = .msgpack then (s, .error .unicodeError)
      else
        match ser.dumps (s.sendEnv H) s.refs (replyDict reqId rval error) with
        | (t, .error e) => ({ s with refs := t }, .error e)
        | (t, .ok w) =>
          if s.sockOpen then ({ s with refs := t }, .ok [.send caller ser w])
          else ({ s with refs := t }, .error .zmqError)

/-- The text `exc_str` sent for an exception; /repo/teleprox/server.py:326-329. `caller` can be decoded where this is used. -/
def Heap.transcript (H : Heap) (caller : Bytes) (reqId : Int) : List String :=
  ("Error while processing request " ++ (H.utf8 caller).getD "" ++ " [" ++ toString reqId ++ "]: ") :: H.stackText ++ [" < exception caught here >\n"] ++ H.tb

/-- `_send_error`; /repo/teleprox/server.py:325-330. -/
def Srv.sendError (H : Heap) (s : Srv) (caller : Bytes) (reqId : Int) (e : Exc) : Srv × Except Exc (List Out) :=
  match H.utf8 caller with
  | none => (s, .error .unicodeError)
  | some _ => s.sendResult H caller reqId .none (.tuple [.str e.name, .list ((H.transcript caller reqId).map .str)]) H.tbBad

/-- `get_proxy(obj)` giving the proxy as a value; /repo/teleprox/server.py:193-206. Without options it does not
raise. -/
def Srv.proxyTo (H : Heap) (s : Srv) (v : Val) : Srv × Val :=
  match s.refs.getProxy H.idOf (H.ident v) [] with
  | (t, .ok (oid, rid)) => ({ s with refs := t }, .proxy ⟨s.addr, oid, rid, H.typeStr v, []⟩)
  | (t, .error _) => ({ s with refs := t }, .none)

/-- Conversion of a result according to the return type; /repo/teleprox/server.py:302-305, 477-482. -/
def Srv.convert (H : Heap) (s : Srv) (returnType : String) (v : Val) : Srv × Val :=
  if returnType = "auto" then if v.isinstance s.tys then (s, v) else s.proxyTo H v
  else if returnType = "proxy" then s.proxyTo H v
  else (s, v)

/-- Lines 296-320 of `_process_one`: send the result or the error. The last component is an exception that
leaves `_process_one`. /repo/teleprox/server.py:298-320. -/
def Srv.respond (H : Heap) (s : Srv) (caller : Bytes) (reqId : Int) (returnType : String) (r : Except Exc Val) :
    Srv × List Out × Option Exc :=
  if 0 ≤ reqId then
    match r with
    | .ok v =>
      let (s, v) := s.convert H returnType v
      match s.sendResult H caller reqId v .none with
      | (s, .ok o) => (s, o, none)
      | (s, .error e) =>
        match s.sendError H caller reqId e with
        | (s, .ok o) => (s, o, none)
        | (s, .error e) => (s, [], some e)
    | .error e =>
      match s.sendError H caller reqId e with
      | (s, .ok o) => (s, o, none)
      | (s, .error e) => (s, [], some e)
  else
    match r with
    | .ok _ => (s, [], none)
    | .error e => (s, [.hook e], none)

/-- The end of `_process_one`: respond, and close the socket after a `close` request;
/repo/teleprox/server.py:298-323. An exception leaving `_process_one` ends `run_forever` unless user code of an
earlier request is below on the stack (which then sees it). -/
def Srv.finish (H : Heap) (s : Srv) (caller : Bytes) (reqId : Int) (returnType : String) (close : Bool)
    (r : Except Exc Val) : Srv × List Out :=
  match s.respond H caller reqId returnType r with
  | (s, o, none) => (if close then { s with sockOpen := false } else s, o ++ [.done caller reqId none])
  | (s, o, some e) =>
    ({ s with dead := s.dead || s.stack.isEmpty }, o ++ [.done caller reqId (some e)])

/-- `opts[k]`. Used at /repo/teleprox/server.py:349-377. -/
def optGet (H : Heap) (v : Val) (k : String) : Except Exc Val :=
  match v with
  | .dict d => match lookupStr d k with
    | some x => .ok x
    | none => .error .keyError
  | .none => .error .typeError
  | v => H.getitem v k

/-- `opts.get(k, d)`. Used at /repo/teleprox/server.py:350-351, 378. -/
def optGetD (H : Heap) (v : Val) (k : String) (dflt : Val) : Except Exc Val :=
  match v with
  | .dict d => .ok ((lookupStr d k).getD dflt)
  | .none => .error .attributeError
  | v => H.getdef v k dflt

/-- `len(v)`. Used at /repo/teleprox/server.py:353, 357, 381. -/
def pyLen (H : Heap) (v : Val) : Except Exc Nat :=
  match v with
  | .dict d => .ok d.length
  | .list l => .ok l.length
  | .tuple l => .ok l.length
  | .none => .error .typeError
  | v => H.len v

/-- The exception raised by the log call of line 357 for these arguments, if any. /repo/teleprox/server.py:357. -/
def sliceMask (H : Heap) (args : Val) : Option Exc :=
  match args with
  | .list _ => none
  | .tuple _ => none
  | .none => some .typeError
  | a => match H.slice a with
    | .ok _ => none
    | .error e => some e

/-- hash class of a value as namespace key. Used at /repo/teleprox/server.py:230-236. -/
def keyOf (H : Heap) (v : Val) : Except Exc Key :=
  match v with
  | .str s => .ok (.str s)
  | v => H.hash v

/-- the natural number a value equals as key of `_proxy_refs` or member of a reference set.
Used at /repo/teleprox/server.py:365-366. -/
def numKeyOf (H : Heap) (v : Val) : Except Exc (Option Nat) :=
  match v with
  | .int i => .ok (if 0 ≤ i then some i.toNat else none)
  | .bool b => .ok (some b.toNat)
  | v => H.numKey v

/-- The `delete` action; /repo/teleprox/server.py:364-370. -/
def Srv.deleteAction (H : Heap) (s : Srv) (opts : Val) : Srv × Except Exc Val :=
  match (do numKeyOf H (← optGet H opts "obj_id")) with
  | .error e => (s, .error e)
  | .ok none => (s, .error .keyError)
  | .ok (some oid) =>
    match s.refs.refs.get? oid with
    | none => (s, .error .keyError)
    | some _ =>
      match (do numKeyOf H (← optGet H opts "ref_id")) with
      | .error e => (s, .error e)
      | .ok none => (s, .error .keyError)
      | .ok (some rid) =>
        match s.refs.delete H.idOf oid rid with
        | (t, .ok ()) => ({ s with refs := t }, .ok .none)
        | (t, .error e) => ({ s with refs := t }, .error e)

/-- The disconnect message; /repo/teleprox/server.py:404. It contains only strings, so every environment gives
the same tree. -/
def disconnectWire : Wire := .map [(.str "action", .str "disconnect")]

/-- The broadcast of the `close` action; /repo/teleprox/server.py:393-409: stops with `KeyError` at a client
whose last message named an unsupported serializer. -/
def broadcast (caller : Bytes) : List (Bytes × String) → List Out × Except Exc Unit
  | [] => ([], .ok ())
  | (c, st) :: r =>
    if c = caller then broadcast caller r
    else
      match serOf st with
      | none => ([], .error .keyError)
      | some ser =>
        let (o, e) := broadcast caller r
        (.send c ser disconnectWire :: o, e)

/-- The `close` action; /repo/teleprox/server.py:390-411, 118-125. -/
def Srv.closeAction (s : Srv) (caller : Bytes) : Srv × List Out × Except Exc Val :=
  let s := { s with closed := true }
  match broadcast caller s.clients with
  | (o, .error e) => (s, o, .error e)
  | (o, .ok ()) =>
    if s.registered then ({ s with registered := false }, o, .ok (.bool true))
    else (s, o, .error .keyError)

/-- What `process_action` does before user code runs, if any; /repo/teleprox/server.py:345-415. -/
inductive Started where
  | finished (s : Srv) (o : List Out) (r : Except Exc Val)
  | running (s : Srv) (o : List Out) (task : Task)

/-- `process_action`; /repo/teleprox/server.py:345-415. -/
def Srv.action (H : Heap) (s : Srv) (caller : Bytes) (action : String) (opts : Val) : Started :=
  match action with
  | "call_obj" =>
    match (do
      let obj ← optGet H opts "obj"
      let args ← optGetD H opts "args" (.tuple [])
      let kwds ← optGetD H opts "kwargs" (.dict [])
      let n ← pyLen H kwds
      pure (obj, args, kwds, n)) with
    | .error e => .finished s [] (.error e)
    | .ok (obj, args, kwds, n) =>
      if n = 0 then .running s [.invoke obj args (.dict [])] (.call (sliceMask H args))
      else .running s [.invoke obj args kwds] .callKw
  | "get_obj" => .finished s [] (optGet H opts "obj")
  | "delete" =>
    let (s, r) := s.deleteAction H opts
    .finished s [] r
  | "get_item" =>
    .finished s [] (do
      let k ← keyOf H (← optGet H opts "name")
      match s.ns.get? k with
      | some v => pure v
      | none => throw .keyError)
  | "set_item" =>
    -- the right-hand side is evaluated first
    match (do
      let v ← optGet H opts "obj"
      let k ← keyOf H (← optGet H opts "name")
      pure (k, v)) with
    | .error e => .finished s [] (.error e)
    | .ok (k, v) => .finished { s with ns := s.ns.set k v } [] (.ok .none)
  | "import" =>
    match (do
      let name ← optGet H opts "module"
      let fl ← optGetD H opts "fromlist" (.list [])
      pure (name, fl)) with
    | .error e => .finished s [] (.error e)
    | .ok (name, fl) =>
      match name.text? with
      | some name => .running s [.importing name fl] (.imp name fl)
      | none => .finished s [] (.error .typeError)
  | "ping" => .finished s [] (.ok (.str "pong"))
  | "close" =>
    let (s, o, r) := s.closeAction caller
    .finished s o r
  | _ => .finished s [] (.error .valueError)

/-- `name.lstrip('.').split('.')[1:]`; /repo/teleprox/server.py:382-384. -/
def importPath (name : String) : List String :=
  ((name.toList.dropWhile (· = '.')).splitOn '.').tail.map String.ofList

/-- The result of `process_action` once user code ended; /repo/teleprox/server.py:354-361, 379-387. -/
def Task.result (H : Heap) (task : Task) (r : Except Exc Val) : Except Exc Val :=
  match task, r with
  | .call _, .ok v => .ok v
  | .call none, .error e => .error e
  | .call (some m), .error _ => .error m
  | .callKw, r => r
  | .imp _ _, .error e => .error e
  | .imp name fl, .ok mod =>
    match pyLen H fl with
    | .error e => .error e
    | .ok 0 => getattrs H.ga mod (importPath name)
    | .ok _ =>
      match H.ga mod "__getattr__" with
      | .ok _ => .ok H.mapObj
      | .error e => .error e

/-- `_process_one` up to the point where it ends or user code starts; /repo/teleprox/server.py:262-323. -/
def Srv.process (H : Heap) (s : Srv) (caller : Bytes) (m : Msg) : Srv × List Out :=
  let s := { s with clients := s.clients.set caller m.serType }
  let close : Bool := m.action = "close"
  match serOf m.serType with
  | none => s.finish H caller m.reqId m.returnType close (.error .valueError)
  | some ser =>
    match H.utf8 caller with
    | none => s.finish H caller m.reqId m.returnType close (.error .unicodeError)
    | some _ =>
      match (if m.opts = [] then .ok .none else do ser.loads (s.recvEnv H) (← H.parse ser m.opts)) with
      | .error e => s.finish H caller m.reqId m.returnType close (.error e)
      | .ok opts =>
        match s.action H caller m.action opts with
        | .finished s o r =>
          let (s, o') := s.finish H caller m.reqId m.returnType close r
          (s, o ++ o')
        | .running s o task => ({ s with stack := ⟨caller, m.reqId, m.returnType, task⟩ :: s.stack }, o)

/-- What can happen to a server. /repo/teleprox/server.py:216, 252, 262, 423, 444. -/
inductive Ev where
  /-- a multipart message is available and the thread is ready to read -/
  | recv (H : Heap) (parts : List Bytes)
  /-- the innermost running user code ends -/
  | ret (H : Heap) (r : Except Exc Val)
  /-- user code in the server's process: `server[name] = v` -/
  | publish (H : Heap) (name v : Val)
  /-- user code in the server's process: `server.get_proxy(v, **kwds)` -/
  | mkProxy (H : Heap) (v : Val) (kwds : List String)

/-- One step. A closed server reads nothing: `run_forever` stops (server.py:452) and waiting clients find no
registered server (client.py:494-499); neither does one whose loop was ended by an exception. Reading from a
closed socket (which a server that is not closed has after a `close` request it could not decode) raises. -/
def Srv.step (s : Srv) : Ev → Srv × List Out
  | .recv H parts =>
    if s.closed || s.dead then (s, [])
    else if s.sockOpen = false then ({ s with dead := s.stack.isEmpty }, [.badRead .zmqError])
    else
      match readOne H parts with
      | .error e => ({ s with dead := s.stack.isEmpty }, [.badRead e])
      | .ok (caller, m) =>
        let (s, o) := s.process H caller m
        (s, .accept caller m.reqId m.action m.serType :: o)
  | .ret H r =>
    match s.stack with
    | [] => (s, [])
    | f :: st => { s with stack := st }.finish H f.caller f.reqId f.returnType false (f.task.result H r)
  | .publish H name v =>
    match keyOf H name with
    | .ok k => ({ s with ns := s.ns.set k v }, [])
    | .error _ => (s, [])
  | .mkProxy H v kwds =>
    ({ s with refs := (s.refs.getProxy H.idOf (H.ident v) kwds).1 }, [])

/-- A run: final state and everything observed. Any sequence of /repo/teleprox/server.py:238-415. -/
def Srv.run (s : Srv) : List Ev → Srv × List Out
  | [] => (s, [])
  | e :: es =>
    let (s1, o1) := s.step e
    let (s2, o2) := s1.run es
    (s2, o1 ++ o2)

end Verif
