import Verif.Model.Server
/-!
# Optional packages

`numpy` and `msgpack` may be missing in a process (/repo/teleprox/serializer.py:10-20). The rest of the model has both;
here the tests of `HAVE_NUMPY` and `HAVE_MSGPACK` are modelled.
-/
namespace Verif

/-- `HAVE_NUMPY` and `HAVE_MSGPACK` of a process; /repo/teleprox/serializer.py:10-20. -/
structure Packages where
  numpy : Bool
  msgpack : Bool
  deriving DecidableEq, Repr

/-- `default_serialize_types` with or without numpy, without Qt; /repo/teleprox/serializer.py:39-46. -/
def defaultTypesIf (np : Bool) : List Ty :=
  [.objectProxy, .noneType, .str, .bytes, .int, .float, .tuple, .list, .dict, .bool,
   .datetime, .date, .sharedMemory, .sharedNDArray] ++ (if np then [.npNumber, .npBool, .npDtype, .ndarray] else [])

/-- The last branch of `Serializer.encode`; /repo/teleprox/serializer.py:145-154. -/
def encodePickle (L : Lib) (v : Val) : Except Exc (List (Val × Val)) :=
  match L.pickleDumps v with
  | .ok b => .ok [(.str encodeKey, .str "pickle"), (.str "pickle_str", .bytes b)]
  | .error e => .error e

/-- `Serializer.encode` after the proxy step, with the tests of `HAVE_NUMPY`; /repo/teleprox/serializer.py:108-154. -/
def encodeValueIf (np : Bool) (L : Lib) (v : Val) : Except Exc (List (Val × Val)) :=
  match v.core with
  | .ndarray _ => if np then encodeValue L v else encodePickle L v
  | .npScalar _ => if np then encodeValue L v else encodePickle L v
  | _ => encodeValue L v

/-- `Serializer.encode`; /repo/teleprox/serializer.py:96-154. -/
def encodeIf (np : Bool) (E : SendEnv) (t : Refs) (v : Val) : Refs × Except Exc (List (Val × Val)) :=
  if v.isinstance E.tys then (t, encodeValueIf np E.lib v)
  else
    match E.server with
    | none => (t, .error .typeError)
    | some addr =>
      match t.getProxy E.idOf (E.ident v) [] with
      | (t', .ok (oid, rid)) => (t', encodeValueIf np E.lib (.proxy ⟨addr, oid, rid, E.typeStr v, []⟩))
      | (t', .error e) => (t', .error e)

/-- `msgpack.dumps(obj, use_bin_type=True, default=self.encode, strict_types=True)`, as `pack`;
/repo/teleprox/serializer.py:244. -/
def packIf (np : Bool) (E : SendEnv) : Nat → Refs → Val → Refs × Except Exc Wire
  | 0, t, _ => (t, .error .valueError)
  | n + 1, t, v =>
    let viaMap := fun (t : Refs) (d : List (Val × Val)) =>
      match mapS (pairS (packIf np E n)) t d with
      | (t', .ok m) => (t', Except.ok (Wire.map m))
      | (t', .error e) => (t', .error e)
    let viaDefault := fun (_ : Unit) =>
      match encodeIf np E t v with
      | (t', .ok d) => viaMap t' d
      | (t', .error e) => (t', .error e)
    match v with
    | .none => (t, .ok .nil)
    | .bool b => (t, .ok (.bool b))
    | .int i => if -(2 : Int) ^ 63 ≤ i ∧ i < 2 ^ 64 then (t, .ok (.int i)) else viaDefault ()
    | .float f => (t, .ok (.float f))
    | .str s => (t, .ok (.str s))
    | .bytes b => (t, .ok (.bin b))
    | .list l =>
      match mapS (packIf np E n) t l with
      | (t', .ok ws) => (t', .ok (.arr ws))
      | (t', .error e) => (t', .error e)
    | .dict d => viaMap t d
    | _ => viaDefault ()

/-- `MsgpackSerializer.dumps`; /repo/teleprox/serializer.py:239-244. -/
def msgpackDumpsIf (np : Bool) (E : SendEnv) (t : Refs) (v : Val) : Refs × Except Exc Wire :=
  packIf np E msgpackDepth t v

/-- `JsonSerializer.encode`; /repo/teleprox/serializer.py:293-309. -/
def jencodeIf (np : Bool) (E : SendEnv) (t : Refs) (v : Val) : Refs × Except Exc (List (Val × Val)) :=
  match v.core with
  | .ndarray _ => if np then jencode E t v else encodeIf np E t v
  | .bytes _ => jencode E t v
  | _ => encodeIf np E t v

/-- `json.dumps(obj, cls=EnhancedJSONEncoder)`, as `jpack`; /repo/teleprox/serializer.py:274-286. -/
def jpackIf (np : Bool) (E : SendEnv) : Nat → Refs → Val → Refs × Except Exc Wire
  | 0, t, _ => (t, .error (.other "RecursionError"))
  | n + 1, t, v =>
    let viaMap := fun (t : Refs) (d : List (Val × Val)) =>
      match mapS (jpair E.lib (jpackIf np E n)) t d with
      | (t', .ok m) => (t', Except.ok (Wire.map m))
      | (t', .error e) => (t', .error e)
    let viaList := fun (l : List Val) =>
      match mapS (jpackIf np E n) t l with
      | (t', .ok ws) => (t', Except.ok (Wire.arr ws))
      | (t', .error e) => (t', .error e)
    let viaDefault := fun (_ : Unit) =>
      match jencodeIf np E t v with
      | (t', .ok d) => viaMap t' d
      | (t', .error e) => (t', .error e)
    match v.core with
    | .none => (t, .ok .nil)
    | .bool b => (t, .ok (.bool b))
    | .int i => (t, .ok (.int i))
    | .float f => (t, .ok (.float f))
    | .str s => (t, .ok (.str s))
    | .list l => viaList l
    | .tuple l => viaList l
    | .dict d => viaMap t d
    | .npScalar s =>
      match s.dtype.kind, s.dtype.itemsize, s.val with
      | .floating, 8, .float f => (t, .ok (.float f))
      | _, _, _ => viaDefault ()
    | _ => viaDefault ()

/-- `JsonSerializer.dumps`; /repo/teleprox/serializer.py:283-286. -/
def jsonDumpsIf (np : Bool) (E : SendEnv) (t : Refs) (v : Val) : Refs × Except Exc Wire := jpackIf np E jsonDepth t v

/-- `Serializer.decode` on a dict, with the test of `HAVE_NUMPY`; /repo/teleprox/serializer.py:156-195. -/
def decodeIf (np : Bool) (R : RecvEnv) (d : List (Val × Val)) : Except Exc Val :=
  match (lookupStr d encodeKey).bind Val.text? with
  | some "ndarray" => if np then decode R d else .error .importError
  | _ => decode R d

mutual
/-- `msgpack.loads(msg, object_hook=self.decode)`, as `unpack`; /repo/teleprox/serializer.py:259. -/
def unpackIf (np : Bool) (R : RecvEnv) : Wire → Except Exc Val
  | .nil => .ok .none
  | .bool b => .ok (.bool b)
  | .int i => .ok (.int i)
  | .float f => .ok (.float f)
  | .str s => .ok (.str s)
  | .bin b => .ok (.bytes b)
  | .arr l =>
    match unpackIfL np R l with
    | .ok vs => .ok (.list vs)
    | .error e => .error e
  | .map m =>
    match unpackIfM np R m with
    | .ok d => decodeIf np R (dictOf d)
    | .error e => .error e

/-- Items of an array. Part of /repo/teleprox/serializer.py:259. -/
def unpackIfL (np : Bool) (R : RecvEnv) : List Wire → Except Exc (List Val)
  | [] => .ok []
  | w :: ws =>
    match unpackIf np R w with
    | .error e => .error e
    | .ok v =>
      match unpackIfL np R ws with
      | .ok vs => .ok (v :: vs)
      | .error e => .error e

/-- Entries of a map. Part of /repo/teleprox/serializer.py:259. -/
def unpackIfM (np : Bool) (R : RecvEnv) : List (Wire × Wire) → Except Exc (List (Val × Val))
  | [] => .ok []
  | (k, w) :: r =>
    match unpackIf np R k with
    | .error e => .error e
    | .ok kv =>
      if ¬ keyOk kv then .error .valueError
      else
        match unpackIf np R w with
        | .error e => .error e
        | .ok v =>
          match unpackIfM np R r with
          | .ok d => .ok ((kv, v) :: d)
          | .error e => .error e
end

/-- `MsgpackSerializer.loads`; /repo/teleprox/serializer.py:246-259. -/
def msgpackLoadsIf (np : Bool) (R : RecvEnv) (w : Wire) : Except Exc Val := unpackIf np R w

/-- `JsonSerializer.decode` on a dict, with its test of `HAVE_NUMPY`; /repo/teleprox/serializer.py:311-323. The base
`decode` it falls back to sees no ndarray. -/
def jdecodeIf (np : Bool) (R : RecvEnv) (d : List (Val × Val)) : Except Exc Val :=
  match (lookupStr d encodeKey).bind Val.text? with
  | some "ndarray" => if np then jdecode R d else .error .importError
  | _ => jdecode R d

mutual
/-- `json.loads(msg, object_hook=self.decode)`, as `junpack`; /repo/teleprox/serializer.py:291. -/
def junpackIf (np : Bool) (R : RecvEnv) : Wire → Except Exc Val
  | .nil => .ok .none
  | .bool b => .ok (.bool b)
  | .int i => .ok (.int i)
  | .float f => .ok (.float f)
  | .str s => .ok (.str s)
  | .bin _ => .error .valueError
  | .arr l =>
    match junpackIfL np R l with
    | .ok vs => .ok (.list vs)
    | .error e => .error e
  | .map m =>
    match junpackIfM np R m with
    | .ok d => jdecodeIf np R (dictOf d)
    | .error e => .error e

/-- Items of an array. Part of /repo/teleprox/serializer.py:291. -/
def junpackIfL (np : Bool) (R : RecvEnv) : List Wire → Except Exc (List Val)
  | [] => .ok []
  | w :: ws =>
    match junpackIf np R w with
    | .error e => .error e
    | .ok v =>
      match junpackIfL np R ws with
      | .ok vs => .ok (v :: vs)
      | .error e => .error e

/-- Entries of an object. Part of /repo/teleprox/serializer.py:291. -/
def junpackIfM (np : Bool) (R : RecvEnv) : List (Wire × Wire) → Except Exc (List (Val × Val))
  | [] => .ok []
  | (.str k, w) :: r =>
    match junpackIf np R w with
    | .error e => .error e
    | .ok v =>
      match junpackIfM np R r with
      | .ok d => .ok ((.str k, v) :: d)
      | .error e => .error e
  | (_, _) :: _ => .error .valueError
end

/-- `JsonSerializer.loads`; /repo/teleprox/serializer.py:288-291. -/
def jsonLoadsIf (np : Bool) (R : RecvEnv) (w : Wire) : Except Exc Val := junpackIf np R w

/-- `all_serializers`: names and classes registered when the module is imported; /repo/teleprox/serializer.py:26-27,
261-262, 325. -/
def allSerializers (P : Packages) : List (String × Ser) :=
  (if P.msgpack then [("msgpack", .msgpack)] else []) ++ [("json", .json)]

/-- Creating a serializer: `MsgpackSerializer.__init__` asserts `HAVE_MSGPACK`, `JsonSerializer.__init__` does not
fail; /repo/teleprox/serializer.py:235-237, 270-281. -/
def Ser.create (P : Packages) : Ser → Except Exc Ser
  | .msgpack => if P.msgpack then .ok .msgpack else .error .assertionError
  | .json => .ok .json

/-- The loop of `RPCServer.__init__` that makes one of each; /repo/teleprox/server.py:151-155. -/
def serverSerializers (P : Packages) : List (String × Ser) → Except Exc (Dict String Ser)
  | [] => .ok []
  | (n, c) :: r =>
    match c.create P with
    | .error e => .error e
    | .ok s =>
      match serverSerializers P r with
      | .ok d => .ok ((n, s) :: d)
      | .error e => .error e

/-- `RPCClient.__init__` picking its serializer; /repo/teleprox/client.py:163-166. -/
def clientSerializer (P : Packages) (name : String) : Except Exc Ser :=
  match (allSerializers P).find? (·.1 = name) with
  | some (_, c) => c.create P
  | none => .error .valueError

/-- `_process_one` picking the serializer named by a request; /repo/teleprox/server.py:278-282. -/
def requestSerializer (d : Dict String Ser) (name : String) : Except Exc Ser :=
  match d.get? name with
  | some s => .ok s
  | none => .error .valueError

end Verif
