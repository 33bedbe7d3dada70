import Verif.Model.Formats
/-!
# Requests made while a message is read

A proxy found in a message stands for an object of the process it names. Where `decode` uses a field that turns out to
be a proxy (`==`, `.startswith(...)`, `.type(...)`, `tuple(...)`, `.reshape(...)`), the methods of `ObjectProxy`
(/repo/teleprox/proxy.py:359-444) send a request to that process and wait for the answer. The functions below are those
of `Verif.Model.Serializer`, except that reading stops at the first such request: what follows depends on the answer.
-/
namespace Verif

/-- A request that reading a message makes: the proxy used, the attribute called and the positional arguments;
`self._deferred_attr(attr)(*args)`, /repo/teleprox/proxy.py:266-304, 359-444. -/
structure Ask where
  proxy : Proxy
  attr : String
  args : List Val

/-- Reading either reaches a request or ends. -/
inductive Reading (α : Type) where
  | asks (a : Ask)
  | done (x : Except Exc α)

/-- The proxy a value is, if it is one. `isinstance(x, ObjectProxy)` decides which methods are called at
/repo/teleprox/serializer.py:163-191. -/
def Val.proxy? : Val → Option Proxy
  | .proxy p => some p
  | _ => Option.none

/-- `np.frombuffer(data, dtype=dt).reshape(p)`: once the array is built, `reshape` asks a proxy given as shape for its
length; /repo/teleprox/serializer.py:172, 318. -/
def shapeAsk (data : Except Exc Bytes) (dt : Except Exc DType) (shape : Option Val) : Option Ask :=
  match shape.bind Val.proxy? with
  | none => none
  | some p =>
    match buildArray data dt (some (.int (-1))) with
    | .ok _ => some ⟨p, "__len__", []⟩
    | .error _ => none

/-- The ndarray branch: `dt.startswith('[')`, then `.reshape(dct['shape'])`; /repo/teleprox/serializer.py:163-172. -/
def arrayAsk (R : RecvEnv) (d : List (Val × Val)) : Option Ask :=
  match lookupStr d "dtype" with
  | some (.proxy p) => some ⟨p, "startswith", [.str "["]⟩
  | some (.str dt) =>
    match lookupStr d "data" with
    | some v => shapeAsk v.buffer (if startsWithC '[' dt then R.lib.dtypeExec dt else R.lib.dtypeParse dt) (lookupStr d "shape")
    | none => none
  | _ => none

/-- The np_number branch: the argument is looked up before `.type` is called; /repo/teleprox/serializer.py:176.
Simplification: what numpy does with a proxy given as value is left out. -/
def numberAsk (d : List (Val × Val)) : Option Ask :=
  match lookupStr d "dtype", lookupStr d "value" with
  | some (.proxy p), some v => some ⟨p, "type", [v]⟩
  | _, _ => none

/-- The tuple branch: `tuple(p)` asks for the length first; /repo/teleprox/serializer.py:182. -/
def tupleAsk (d : List (Val × Val)) : Option Ask :=
  match lookupStr d "data" with
  | some (.proxy p) => some ⟨p, "__len__", []⟩
  | _ => none

/-- The proxy branch: `tuple(dct['attributes'])`, then, once the proxy is made, `proxy._rpc_addr == self.server.address`
if this process has a server; /repo/teleprox/serializer.py:186-191. The proxy is made if its fields are there and no
other name is used, whatever the address is (/repo/teleprox/proxy.py:83-93). Simplification: as in `proxyOfDict`, the
other fields must have the expected types. -/
def proxyAsk (R : RecvEnv) (d : List (Val × Val)) : Option Ask :=
  match (lookupStr d "attributes").bind Val.proxy? with
  | some p => some ⟨p, "__len__", []⟩
  | none =>
    match R.server, (lookupStr d "rpc_addr").bind Val.proxy? with
    | some (addr, _), some p =>
      match proxyOfDict (d.map fun e => if e.1.text? = some "rpc_addr" then (e.1, .str "") else e) with
      | .ok _ => some ⟨p, "__eq__", [.bytes (utf8Bytes addr)]⟩
      | .error _ => none
    | _, _ => none

/-- The first request one call of `Serializer.decode` makes; /repo/teleprox/serializer.py:156-195. -/
def decodeAsk (R : RecvEnv) (d : List (Val × Val)) : Option Ask :=
  match lookupStr d encodeKey with
  | none => none
  | some (.proxy p) => some ⟨p, "__eq__", [.str "ndarray"]⟩
  | some tn =>
    let d := removeStr d encodeKey
    match tn.text? with
    | some "ndarray" => arrayAsk R d
    | some "np_number" => numberAsk d
    | some "tuple" => tupleAsk d
    | some "proxy" => proxyAsk R d
    | _ => none

/-- One call of `Serializer.decode`; /repo/teleprox/serializer.py:156-195. -/
def decodeQ (R : RecvEnv) (d : List (Val × Val)) : Reading Val :=
  match decodeAsk R d with
  | some a => .asks a
  | none => .done (decode R d)

mutual
/-- `msgpack.loads(msg, object_hook=self.decode)` up to the first request; /repo/teleprox/serializer.py:259. -/
def unpackQ (R : RecvEnv) : Wire → Reading Val
  | .nil => .done (.ok .none)
  | .bool b => .done (.ok (.bool b))
  | .int i => .done (.ok (.int i))
  | .float f => .done (.ok (.float f))
  | .str s => .done (.ok (.str s))
  | .bin b => .done (.ok (.bytes b))
  | .arr l =>
    match unpackQL R l with
    | .asks a => .asks a
    | .done (.ok vs) => .done (.ok (.list vs))
    | .done (.error e) => .done (.error e)
  | .map m =>
    match unpackQM R m with
    | .asks a => .asks a
    | .done (.ok d) => decodeQ R (dictOf d)
    | .done (.error e) => .done (.error e)

/-- Items of an array. Part of /repo/teleprox/serializer.py:259. -/
def unpackQL (R : RecvEnv) : List Wire → Reading (List Val)
  | [] => .done (.ok [])
  | w :: ws =>
    match unpackQ R w with
    | .asks a => .asks a
    | .done (.error e) => .done (.error e)
    | .done (.ok v) =>
      match unpackQL R ws with
      | .asks a => .asks a
      | .done (.ok vs) => .done (.ok (v :: vs))
      | .done (.error e) => .done (.error e)

/-- Entries of a map. Part of /repo/teleprox/serializer.py:259. -/
def unpackQM (R : RecvEnv) : List (Wire × Wire) → Reading (List (Val × Val))
  | [] => .done (.ok [])
  | (k, w) :: r =>
    match unpackQ R k with
    | .asks a => .asks a
    | .done (.error e) => .done (.error e)
    | .done (.ok kv) =>
      if ¬ keyOk kv then .done (.error .valueError)
      else
        match unpackQ R w with
        | .asks a => .asks a
        | .done (.error e) => .done (.error e)
        | .done (.ok v) =>
          match unpackQM R r with
          | .asks a => .asks a
          | .done (.ok d) => .done (.ok ((kv, v) :: d))
          | .done (.error e) => .done (.error e)
end

/-- The first request one call of `JsonSerializer.decode` makes. Arrays and bytes are read by the method itself; base64
refuses a proxy without a request, and so does the dtype of `np.frombuffer`, which only looks up attributes;
/repo/teleprox/serializer.py:311-323. -/
def jdecodeAsk (R : RecvEnv) (d : List (Val × Val)) : Option Ask :=
  match (lookupStr d encodeKey).bind Val.text? with
  | some "ndarray" =>
    match lookupStr d "data", lookupStr d "dtype" with
    | some v, some dt => shapeAsk v.b64 (dtypeArg R.lib dt) (lookupStr d "shape")
    | _, _ => none
  | some "bytes" => none
  | _ => decodeAsk R d

/-- One call of `JsonSerializer.decode`; /repo/teleprox/serializer.py:311-323. -/
def jdecodeQ (R : RecvEnv) (d : List (Val × Val)) : Reading Val :=
  match jdecodeAsk R d with
  | some a => .asks a
  | none => .done (jdecode R d)

mutual
/-- `json.loads(msg, object_hook=self.decode)` up to the first request; /repo/teleprox/serializer.py:291. -/
def junpackQ (R : RecvEnv) : Wire → Reading Val
  | .nil => .done (.ok .none)
  | .bool b => .done (.ok (.bool b))
  | .int i => .done (.ok (.int i))
  | .float f => .done (.ok (.float f))
  | .str s => .done (.ok (.str s))
  | .bin _ => .done (.error .valueError)
  | .arr l =>
    match junpackQL R l with
    | .asks a => .asks a
    | .done (.ok vs) => .done (.ok (.list vs))
    | .done (.error e) => .done (.error e)
  | .map m =>
    match junpackQM R m with
    | .asks a => .asks a
    | .done (.ok d) => jdecodeQ R (dictOf d)
    | .done (.error e) => .done (.error e)

/-- Items of an array. Part of /repo/teleprox/serializer.py:291. -/
def junpackQL (R : RecvEnv) : List Wire → Reading (List Val)
  | [] => .done (.ok [])
  | w :: ws =>
    match junpackQ R w with
    | .asks a => .asks a
    | .done (.error e) => .done (.error e)
    | .done (.ok v) =>
      match junpackQL R ws with
      | .asks a => .asks a
      | .done (.ok vs) => .done (.ok (v :: vs))
      | .done (.error e) => .done (.error e)

/-- Entries of an object. Part of /repo/teleprox/serializer.py:291. Simplification: a tree with a key that is no text,
which JSON cannot express, is refused at that key. -/
def junpackQM (R : RecvEnv) : List (Wire × Wire) → Reading (List (Val × Val))
  | [] => .done (.ok [])
  | (.str k, w) :: r =>
    match junpackQ R w with
    | .asks a => .asks a
    | .done (.error e) => .done (.error e)
    | .done (.ok v) =>
      match junpackQM R r with
      | .asks a => .asks a
      | .done (.ok d) => .done (.ok ((.str k, v) :: d))
      | .done (.error e) => .done (.error e)
  | (_, _) :: _ => .done (.error .valueError)
end

end Verif
