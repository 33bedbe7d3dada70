import Verif.Model.NdArray
import Verif.Model.Text
/-!
# The serializers

/repo/teleprox/serializer.py. The byte formats of msgpack and JSON are library matters: a message is a `Wire`
tree and the libraries are trusted to transport trees. What the libraries do with Python objects (native
types, `default` hook, nesting limit, `object_hook` bottom-up, strict map keys) is modelled.
-/
namespace Verif

/-- A message as a tree of msgpack/JSON items.
What `msgpack` and `json` write and read; /repo/teleprox/serializer.py:244, 259, 286, 291. -/
inductive Wire where
  | nil
  | bool (b : Bool)
  | int (i : Int)
  | float (bits : Nat)
  | str (s : String)
  | bin (b : Bytes)
  | arr (l : List Wire)
  | map (m : List (Wire × Wire))
  deriving Repr, Inhabited

/-- `s.startswith(c)` for a one-character prefix. /repo/teleprox/serializer.py:167. -/
def startsWithC (c : Char) (s : String) : Bool := s.toList.head? = some c

/-- Library functions left abstract: pickle, numpy's dtype names, `repr(float)`, the conversion of long
double scalars, and whether `%Y` is zero-padded. Used at /repo/teleprox/serializer.py:114, 138-153, 170, 174, 176, 286. -/
structure Lib where
  pickleDumps : Val → Except Exc Bytes
  pickleLoads : Bytes → Except Exc Val
  /-- `np.dtype(name)` -/
  dtypeParse : String → Except Exc DType
  /-- `np.dtype(eval(name))`, for names starting with `[` -/
  dtypeExec : String → Except Exc DType
  floatRepr : Nat → String
  ldToFloat : Nat → Nat
  ldOfFloat : Nat → Nat
  padYear : Bool
  /-- the dtypes numpy really has -/
  known : DType → Bool

/-- What is assumed of the libraries where a theorem needs it: pickle accepts integers and known
dtypes and restores what it accepted, numpy understands the dtype names it prints.
About /repo/teleprox/serializer.py:114, 153, 172-176. -/
structure Lib.Laws (L : Lib) : Prop where
  pickle : ∀ v b, L.pickleDumps v = .ok b → L.pickleLoads b = .ok v
  pickleInt : ∀ i, ∃ b, L.pickleDumps (.int i) = .ok b
  dtypePickles : ∀ d, L.known d → ∃ b, L.pickleDumps (.dtype d) = .ok b
  parse : ∀ d, L.known d → ¬ startsWithC '[' d.name → ¬ startsWithC '{' d.name → L.dtypeParse d.name = .ok d
  exec : ∀ d, L.known d → startsWithC '[' d.name → L.dtypeExec d.name = .ok d
  noParse : ∀ n : String, startsWithC '[' n ∨ startsWithC '{' n → L.dtypeParse n = .error .typeError

/-- `encode_key`; /repo/teleprox/serializer.py:32. -/
def encodeKey : String := "___type_name___"

/-- The sending side: the server of the thread (or the one passed in) with its address, `id()`, identities
of values, `str(type(v))`, and the effective serialize types; /repo/teleprox/serializer.py:70-81, 242-243. -/
structure SendEnv where
  lib : Lib
  server : Option String
  idOf : Obj → Nat
  ident : Val → Obj
  typeStr : Val → String
  tys : List Ty

/-- `serialize_types or default_serialize_types`; /repo/teleprox/serializer.py:243, 285. -/
def effTypes (tys : List Ty) : List Ty := if tys.isEmpty then defaultTypes else tys

/-- The value an instance of a subclass behaves like (used for `isinstance` tests). Used at /repo/teleprox/serializer.py:102-145. -/
def Val.core : Val → Val
  | .sub _ v => v.core
  | v => v

/-- The fields of `ObjectProxy.__getstate__`; /repo/teleprox/proxy.py:121-137. -/
def Proxy.getstate (p : Proxy) : List (Val × Val) :=
  [(.str "rpc_addr", .str p.addr), (.str "obj_id", .int p.oid), (.str "ref_id", .int p.rid),
   (.str "type_str", .str p.typeStr), (.str "attributes", .tuple (p.attrs.map .str))]

/-- The Python number a numpy scalar is converted to; /repo/teleprox/serializer.py:131-138. A scalar whose
value does not fit its kind does not exist in numpy; it is refused here. -/
def NpScalar.toPy (L : Lib) (s : NpScalar) : Except Exc Val :=
  match s.dtype.kind, s.val with
  | .bool, .bool b => .ok (.bool b)
  | .integer, .int i => .ok (.int i)
  | .timedelta, .int i => .ok (.int i)
  | .floating, .float f => .ok (.float f)
  | .longdouble, .other n => .ok (.float (L.ldToFloat n))
  | _, _ => .error .typeError

/-- `Serializer.encode` after the proxy step; /repo/teleprox/serializer.py:108-154. -/
def encodeValue (L : Lib) (v : Val) : Except Exc (List (Val × Val)) :=
  match v.core with
  | .ndarray a =>
    let a := if a.cContiguous then a else a.ascontiguous
    .ok [(.str encodeKey, .str "ndarray"), (.str "data", .bytes a.tobytes),
         (.str "dtype", .str a.dtype.name), (.str "shape", .tuple (a.shape.map fun (n : Nat) => .int n))]
  | .proxy p => .ok ((.str encodeKey, .str "proxy") :: p.getstate)
  | .datetime d =>
    .ok [(.str encodeKey, .str "datetime"), (.str "data", .str (String.ofList (fmtDateTime L.padYear d)))]
  | .date d =>
    .ok [(.str encodeKey, .str "date"), (.str "data", .str (String.ofList (fmtDate L.padYear d.year d.month d.day)))]
  | .tuple l => .ok [(.str encodeKey, .str "tuple"), (.str "data", .list l)]
  | .none => .ok [(.str encodeKey, .str "none")]
  | .npScalar s =>
    match s.dtype.kind with
    | .other | .object =>
      match L.pickleDumps v with
      | .ok b => .ok [(.str encodeKey, .str "pickle"), (.str "pickle_str", .bytes b)]
      | .error e => .error e
    | _ =>
      match s.toPy L with
      | .ok x => .ok [(.str encodeKey, .str "np_number"), (.str "dtype", .dtype s.dtype), (.str "value", x)]
      | .error e => .error e
  | _ =>
    match L.pickleDumps v with
    | .ok b => .ok [(.str encodeKey, .str "pickle"), (.str "pickle_str", .bytes b)]
    | .error e => .error e

/-- `Serializer.encode`; /repo/teleprox/serializer.py:96-154. The first step replaces an object of a type
outside the serialize types by a proxy (lines 102-106), or raises `TypeError` without a server. -/
def encode (E : SendEnv) (t : Refs) (v : Val) : Refs × Except Exc (List (Val × Val)) :=
  if v.isinstance E.tys then (t, encodeValue E.lib v)
  else
    match E.server with
    | none => (t, .error .typeError)
    | some addr =>
      match t.getProxy E.idOf (E.ident v) [] with
      | (t', .ok (oid, rid)) => (t', encodeValue E.lib (.proxy ⟨addr, oid, rid, E.typeStr v, []⟩))
      | (t', .error e) => (t', .error e)

/-- Apply a raising, table-changing function to the items of a list in order. Lists inside /repo/teleprox/serializer.py:244, 286. -/
def mapS {α β : Type} (f : Refs → α → Refs × Except Exc β) : Refs → List α → Refs × Except Exc (List β)
  | t, [] => (t, .ok [])
  | t, a :: as =>
    match f t a with
    | (t1, .error e) => (t1, .error e)
    | (t1, .ok b) =>
      match mapS f t1 as with
      | (t2, .error e) => (t2, .error e)
      | (t2, .ok bs) => (t2, .ok (b :: bs))

/-- Apply a raising, table-changing function to key and value of each item. Dicts inside /repo/teleprox/serializer.py:244, 286. -/
def pairS {β : Type} (f : Refs → Val → Refs × Except Exc β) (t : Refs) (kv : Val × Val) :
    Refs × Except Exc (β × β) :=
  match f t kv.1 with
  | (t1, .error e) => (t1, .error e)
  | (t1, .ok k) =>
    match f t1 kv.2 with
    | (t2, .error e) => (t2, .error e)
    | (t2, .ok v) => (t2, .ok (k, v))

/-- `msgpack.dumps(obj, use_bin_type=True, default=self.encode, strict_types=True)`;
/repo/teleprox/serializer.py:244. The first argument is the remaining nesting depth (msgpack allows 512 levels
and raises `ValueError` beyond). With strict types only exact built-in types are native; tuples, subclasses
and integers outside 64 bits go through `default`, whose dict result is packed at the same level. -/
def pack (E : SendEnv) : Nat → Refs → Val → Refs × Except Exc Wire
  | 0, t, _ => (t, .error .valueError)
  | n + 1, t, v =>
    let viaMap := fun (t : Refs) (d : List (Val × Val)) =>
      match mapS (pairS (pack E n)) t d with
      | (t', .ok m) => (t', Except.ok (Wire.map m))
      | (t', .error e) => (t', .error e)
    let viaDefault := fun (_ : Unit) =>
      match encode E t v with
      | (t', .ok d) => viaMap t' d
      | (t', .error e) => (t', .error e)
    match v with
    | .none => (t, .ok .nil)
    | .bool b => (t, .ok (.bool b))
    | .int i => if -(2 : Int) ^ 63 ≤ i ∧ i < 2 ^ 64 then (t, .ok (.int i)) else viaDefault ()
    | .float f => (t, .ok (.float f))
    | .str s => (t, .ok (.str s))
    | .bytes b => (t, .ok (.bin b))
    | .list l =>
      match mapS (pack E n) t l with
      | (t', .ok ws) => (t', .ok (.arr ws))
      | (t', .error e) => (t', .error e)
    | .dict d => viaMap t d
    | _ => viaDefault ()

/-- The nesting depth msgpack accepts (`DEFAULT_RECURSE_LIMIT = 511`). Limit of /repo/teleprox/serializer.py:244. -/
def msgpackDepth : Nat := 512

/-- `MsgpackSerializer.dumps`; /repo/teleprox/serializer.py:239-244. -/
def msgpackDumps (E : SendEnv) (t : Refs) (v : Val) : Refs × Except Exc Wire := pack E msgpackDepth t v

/-! ## Receiving -/

/-- The receiving side: the server of the thread (or the one passed in): address and `unwrap_proxy`.
/repo/teleprox/serializer.py:75-81, 191-192, 252, 289. -/
structure RecvEnv where
  lib : Lib
  server : Option (String × (Proxy → Except Exc Val))

/-- Equality of dict keys that are str or bytes. Maps read at /repo/teleprox/serializer.py:259, 291. -/
def keyEq : Val → Val → Bool
  | .str a, .str b => a = b
  | .bytes a, .bytes b => a = b
  | _, _ => false

/-- `d[k] = v` on items. Maps read at /repo/teleprox/serializer.py:259, 291. -/
def itemSet (d : List (Val × Val)) (k v : Val) : List (Val × Val) :=
  match d with
  | [] => [(k, v)]
  | (k', v') :: r => if keyEq k' k then (k', v) :: r else (k', v') :: itemSet r k v

/-- Items read one after the other become a dict; later duplicates win. Maps read at /repo/teleprox/serializer.py:259, 291. -/
def dictOf (l : List (Val × Val)) : List (Val × Val) := l.foldl (fun d kv => itemSet d kv.1 kv.2) []

/-- The names of the parameters of `ObjectProxy.__init__`. /repo/teleprox/proxy.py:83, used at /repo/teleprox/serializer.py:188. -/
def proxyParams : List String := ["rpc_addr", "obj_id", "ref_id", "type_str", "attributes"]

/-- What `tuple(v)` holds: the items of a list or tuple, the characters of a text, the bytes as numbers, the keys of a dict. Simplification: arrays and
served objects that can be iterated are refused. Used at /repo/teleprox/serializer.py:182, 187. -/
def Val.items : Val → Option (List Val)
  | .list l => some l
  | .tuple l => some l
  | .str s => some (s.toList.map fun c => .str (String.singleton c))
  | .bytes b => some (b.map fun x => .int x.toNat)
  | .dict d => some (d.map (·.1))
  | .sub _ v => v.items
  | _ => Option.none

/-- A list of strings. Attributes of a proxy, /repo/teleprox/serializer.py:187-188. -/
def asStrs : List Val → Option (List String)
  | [] => some []
  | .str s :: r => (asStrs r).map (s :: ·)
  | _ :: _ => none

/-- A list of integers. The shape at /repo/teleprox/serializer.py:172, 318. -/
def asInts : List Val → Option (List Int)
  | [] => some []
  | .int i :: r => (asInts r).map (i :: ·)
  | _ :: _ => none

/-- The shape that `reshape` is asked for: one integer, or a list or tuple of integers; `None` keeps the array of `n` elements one-dimensional.
Simplification: numpy also takes bytes, an empty text and its own integers. /repo/teleprox/serializer.py:172, 318. -/
def Val.shapeOf (n : Nat) : Val → Option (List Int)
  | .none => some [(n : Int)]
  | .int i => some [i]
  | .list l => asInts l
  | .tuple l => asInts l
  | _ => Option.none

/-- The memory that `np.frombuffer` reads: bytes, or an array in C order whose memory can be viewed. Simplification: numpy scalars and served objects with
a buffer of their own are refused. /repo/teleprox/serializer.py:172. -/
def Val.buffer (v : Val) : Except Exc Bytes :=
  match v.core with
  | .bytes b => .ok b
  | .ndarray a => if a.dtype.bufferable && a.cContiguous then .ok a.tobytes else .error .valueError
  | _ => .error .typeError

/-- A natural number. Ids of a proxy, /repo/teleprox/serializer.py:188. -/
def Val.asNat? : Val → Option Nat
  | .int i => if 0 ≤ i then some i.toNat else Option.none
  | _ => Option.none

/-- A str. Texts of a proxy, /repo/teleprox/serializer.py:188. -/
def Val.asStr? : Val → Option String
  | .str s => some s
  | _ => Option.none

/-- Key names, if all keys are str (needed for `**dct`). `**dct`, /repo/teleprox/serializer.py:188. -/
def keyNames : List (Val × Val) → Option (List String)
  | [] => some []
  | (.str s, _) :: r => (keyNames r).map (s :: ·)
  | _ :: _ => none

/-- `tuple(dct['attributes'])`, nothing if there are none; /repo/teleprox/serializer.py:186-187, /repo/teleprox/proxy.py:83. -/
def proxyAttrs (d : List (Val × Val)) : Option (List Val) :=
  match lookupStr d "attributes" with
  | some v => v.items
  | none => some []

/-- `ObjectProxy(**dct)` on decoded items; /repo/teleprox/serializer.py:186-190, /repo/teleprox/proxy.py:83-114,
225-228. A name `self` collides with the parameter of `__init__`. Simplification: fields of an unexpected type are refused
with `TypeError` (Python builds a proxy with them, see `Verif.Model.LooseProxy`). Option entries, which `__getstate__` never produces, are
accepted; what becomes of them is in `Verif.Model.ReceivedOptions`. -/
def proxyOfDict (d : List (Val × Val)) : Except Exc Proxy :=
  match proxyAttrs d with
  | none => .error .typeError
  | some l =>
    match keyNames d with
    | none => .error .typeError
    | some ks =>
      if "self" ∈ ks then .error .typeError
      else
        match (lookupStr d "rpc_addr").bind Val.asStr?, (lookupStr d "obj_id").bind Val.asNat?,
              (lookupStr d "ref_id").bind Val.asNat? with
        | some addr, some oid, some rid =>
          if ¬ ks.all (fun k => k ∈ proxyParams || k ∈ optionNames) then .error .keyError
          else
            match (match lookupStr d "type_str" with | some v => v.asStr? | none => some ""), asStrs l with
            | some ts, some attrs => .ok ⟨addr, oid, rid, ts, attrs⟩
            | _, _ => .error .typeError
        | _, _, _ => .error .typeError

/-- The proxy branch of `decode`: build the proxy, unwrap it if this side owns it;
/repo/teleprox/serializer.py:185-194. -/
def decodeProxy (R : RecvEnv) (d : List (Val × Val)) : Except Exc Val :=
  match proxyOfDict d with
  | .error e => .error e
  | .ok p =>
    match R.server with
    | some (addr, unwrap) => if p.addr = addr then unwrap p else .ok (.proxy p)
    | none => .ok (.proxy p)

/-- `dct['dtype'].type(dct['value'])`; /repo/teleprox/serializer.py:176. A timedelta built from a plain integer
has no unit. Simplification: values that do not fit are refused with `TypeError`. -/
def npMake (L : Lib) (d : DType) (v : Val) : Except Exc Val :=
  match d.kind, v with
  | .bool, .bool b => .ok (.npScalar ⟨d, .bool b⟩)
  | .integer, .int i => .ok (.npScalar ⟨d, .int i⟩)
  | .timedelta, .int i => .ok (.npScalar ⟨{ d with name := "timedelta64" }, .int i⟩)
  | .floating, .float f => .ok (.npScalar ⟨d, .float f⟩)
  | .longdouble, .float f => .ok (.npScalar ⟨d, .other (L.ldOfFloat f)⟩)
  | _, _ => .error .typeError

/-- `np.frombuffer(data, dtype=dt).reshape(shape)`: the dtype is looked at before the data; /repo/teleprox/serializer.py:172, 318. -/
def buildArray (data : Except Exc Bytes) (dt : Except Exc DType) (shape : Option Val) : Except Exc Val :=
  match dt with
  | .error e => .error e
  | .ok dt =>
    match (if dt.kind = .object ∨ dt.itemsize = 0 then .error .valueError else data) with
    | .error e => .error e
    | .ok data =>
      match frombuffer data dt with
      | .error e => .error e
      | .ok a =>
        match shape with
        | none => .error .keyError
        | some sv =>
          match sv.shapeOf (shapeSize a.shape) with
          | none => .error .typeError
          | some sh =>
            match a.reshape sh with
            | .ok a' => .ok (.ndarray a')
            | .error e => .error e

/-- The value under a key that must be present (`dct[k]`). /repo/teleprox/serializer.py:166-182, 317-320. -/
def need (d : List (Val × Val)) (k : String) : Except Exc Val :=
  match lookupStr d k with
  | some v => .ok v
  | none => .error .keyError

/-- The ndarray branch of the base `decode`; /repo/teleprox/serializer.py:163-172. Bytes have `startswith` too, which refuses a text. Simplification:
missing data are reported before a failing dtype name. -/
def decodeArray (R : RecvEnv) (d : List (Val × Val)) : Except Exc Val :=
  match need d "dtype" with
  | .error e => .error e
  | .ok (.str dt) =>
    match need d "data" with
    | .error e => .error e
    | .ok v => buildArray v.buffer (if startsWithC '[' dt then R.lib.dtypeExec dt else R.lib.dtypeParse dt) (lookupStr d "shape")
  | .ok (.bytes _) => .error .typeError
  | .ok _ => .error .attributeError

/-- The text a (possibly subclassed) str value compares equal to. Used at /repo/teleprox/serializer.py:163-185, 314, 319. -/
def Val.text? (v : Val) : Option String :=
  match v.core with
  | .str s => some s
  | _ => Option.none

/-- `Serializer.decode` on a dict; /repo/teleprox/serializer.py:156-195. `d` is the decoded dict. Simplifications: where a
proxy found in the dict is itself used, which asks its owner (`Verif.Model.Asks`), the answer is taken to be an exception;
an array as type name, whose comparison depends on the version of numpy, counts as an unknown name. -/
def decode (R : RecvEnv) (d : List (Val × Val)) : Except Exc Val :=
  match lookupStr d encodeKey with
  | none => .ok (.dict d)
  | some .none => .ok (.dict (removeStr d encodeKey))
  | some (.proxy _) => .error (.other "RemoteCallException")
  | some tn =>
    let d := removeStr d encodeKey
    match tn.text? with
    | some "ndarray" => decodeArray R d
    | some "pickle" =>
      match need d "pickle_str" with
      | .ok (.bytes b) => R.lib.pickleLoads b
      | .ok _ => .error .typeError
      | .error e => .error e
    | some "np_number" =>
      match need d "dtype" with
      | .ok (.dtype dt) =>
        match need d "value" with
        | .ok v => npMake R.lib dt v
        | .error e => .error e
      | .ok _ => .error .attributeError
      | .error e => .error e
    | some "datetime" =>
      match need d "data" with
      | .ok (.str s) =>
        match parseDateTime s.toList with
        | .ok t => .ok (.datetime t)
        | .error e => .error e
      | .ok _ => .error .typeError
      | .error e => .error e
    | some "date" =>
      match need d "data" with
      | .ok (.str s) =>
        match parseDate s.toList with
        | .ok t => .ok (.date t)
        | .error e => .error e
      | .ok _ => .error .typeError
      | .error e => .error e
    | some "tuple" =>
      match need d "data" with
      | .ok v =>
        match v.items with
        | some l => .ok (.tuple l)
        | none => .error .typeError
      | .error e => .error e
    | some "none" => .ok .none
    | some "proxy" => decodeProxy R d
    | _ => .ok (.dict d)

/-- msgpack's `strict_map_key`: keys must be exactly str or bytes. Part of /repo/teleprox/serializer.py:259. -/
def keyOk : Val → Bool
  | .str _ => true
  | .bytes _ => true
  | _ => false

mutual
/-- `msgpack.loads(msg, object_hook=self.decode)`; /repo/teleprox/serializer.py:259. The hook is applied to
every map, innermost first. -/
def unpack (R : RecvEnv) : Wire → Except Exc Val
  | .nil => .ok .none
  | .bool b => .ok (.bool b)
  | .int i => .ok (.int i)
  | .float f => .ok (.float f)
  | .str s => .ok (.str s)
  | .bin b => .ok (.bytes b)
  | .arr l =>
    match unpackL R l with
    | .ok vs => .ok (.list vs)
    | .error e => .error e
  | .map m =>
    match unpackM R m with
    | .ok d => decode R (dictOf d)
    | .error e => .error e

/-- Items of an array. Part of /repo/teleprox/serializer.py:259. -/
def unpackL (R : RecvEnv) : List Wire → Except Exc (List Val)
  | [] => .ok []
  | w :: ws =>
    match unpack R w with
    | .error e => .error e
    | .ok v =>
      match unpackL R ws with
      | .ok vs => .ok (v :: vs)
      | .error e => .error e

/-- Entries of a map. Part of /repo/teleprox/serializer.py:259. -/
def unpackM (R : RecvEnv) : List (Wire × Wire) → Except Exc (List (Val × Val))
  | [] => .ok []
  | (k, w) :: r =>
    match unpack R k with
    | .error e => .error e
    | .ok kv =>
      if ¬ keyOk kv then .error .valueError
      else
        match unpack R w with
        | .error e => .error e
        | .ok v =>
          match unpackM R r with
          | .ok d => .ok ((kv, v) :: d)
          | .error e => .error e
end

/-- `MsgpackSerializer.loads`; /repo/teleprox/serializer.py:246-259. -/
def msgpackLoads (R : RecvEnv) (w : Wire) : Except Exc Val := unpack R w

/-! ## JSON -/

/-- `JsonSerializer.encode` on a value that JSON does not support natively;
/repo/teleprox/serializer.py:293-309 (the `None` case on line 306 is never reached because JSON handles `None`
natively). Arrays and bytes are handled before the proxy step. -/
def jencode (E : SendEnv) (t : Refs) (v : Val) : Refs × Except Exc (List (Val × Val)) :=
  match v.core with
  | .ndarray a =>
    let a := if a.cContiguous then a else a.ascontiguous
    (t, match a.dataView with
        | .ok data => .ok [(.str encodeKey, .str "ndarray"), (.str "data", .str (String.ofList (b64encode data))),
            (.str "dtype", .str a.dtype.name), (.str "shape", .tuple (a.shape.map fun (n : Nat) => .int n))]
        | .error e => .error e)
  | .bytes b => (t, .ok [(.str encodeKey, .str "bytes"), (.str "data", .str (String.ofList (b64encode b)))])
  | _ => encode E t v

/-- A JSON object key: `json.dumps` keeps str, converts int, float, bool and None, refuses the rest.
Part of /repo/teleprox/serializer.py:286. -/
def jkey (L : Lib) (k : Val) : Except Exc String :=
  match k.core with
  | .str s => .ok s
  | .float f => .ok (L.floatRepr f)
  | .bool true => .ok "true"
  | .bool false => .ok "false"
  | .none => .ok "null"
  | .int i => .ok (toString i)
  | _ => .error .typeError

/-- A JSON object entry. Part of /repo/teleprox/serializer.py:286. -/
def jpair (L : Lib) (f : Refs → Val → Refs × Except Exc Wire) (t : Refs) (kv : Val × Val) :
    Refs × Except Exc (Wire × Wire) :=
  match jkey L kv.1 with
  | .error e => (t, .error e)
  | .ok k =>
    match f t kv.2 with
    | (t1, .error e) => (t1, .error e)
    | (t1, .ok v) => (t1, .ok (.str k, v))

/-- `json.dumps(obj, cls=EnhancedJSONEncoder)`; /repo/teleprox/serializer.py:274-286. The first argument is
the remaining recursion depth (Python raises `RecursionError` beyond; simplification: each level counts one).
Subclasses of str, int, float, list, tuple and dict, including numpy's float64, are native. Simplification: no limit on the digits of an integer
(Python's is 4300; see `Verif.Model.JsonDigits`). -/
def jpack (E : SendEnv) : Nat → Refs → Val → Refs × Except Exc Wire
  | 0, t, _ => (t, .error (.other "RecursionError"))
  | n + 1, t, v =>
    let viaMap := fun (t : Refs) (d : List (Val × Val)) =>
      match mapS (jpair E.lib (jpack E n)) t d with
      | (t', .ok m) => (t', Except.ok (Wire.map m))
      | (t', .error e) => (t', .error e)
    let viaList := fun (l : List Val) =>
      match mapS (jpack E n) t l with
      | (t', .ok ws) => (t', Except.ok (Wire.arr ws))
      | (t', .error e) => (t', .error e)
    let viaDefault := fun (_ : Unit) =>
      match jencode E t v with
      | (t', .ok d) => viaMap t' d
      | (t', .error e) => (t', .error e)
    match v.core with
    | .none => (t, .ok .nil)
    | .bool b => (t, .ok (.bool b))
    | .int i => (t, .ok (.int i))
    | .float f => (t, .ok (.float f))
    | .str s => (t, .ok (.str s))
    | .list l => viaList l
    | .tuple l => viaList l
    | .dict d => viaMap t d
    | .npScalar s =>
      match s.dtype.kind, s.dtype.itemsize, s.val with
      | .floating, 8, .float f => (t, .ok (.float f))
      | _, _, _ => viaDefault ()
    | _ => viaDefault ()

/-- The dtype argument of `np.frombuffer`: a text, or `None` for float64. Simplification: dicts that describe fields, dtypes (which only a pickle can bring here)
and numpy scalars are refused.
/repo/teleprox/serializer.py:318. -/
def dtypeArg (L : Lib) : Val → Except Exc DType
  | .str s => L.dtypeParse s
  | .none => L.dtypeParse "float64"
  | _ => .error .typeError

/-- `base64.b64decode(x)` of what a message holds under `data`: texts, bytes, and arrays whose memory can be viewed. Simplification: numpy scalars and
served objects with a buffer of their own are refused. /repo/teleprox/serializer.py:317, 320. -/
def Val.b64 (v : Val) : Except Exc Bytes :=
  match v.core with
  | .str s => b64decode s.toList
  | .bytes b => b64decodeBytes b
  | .ndarray a => if a.dtype.bufferable then b64decodeBytes a.tobytes else .error .valueError
  | _ => .error .typeError

/-- `JsonSerializer.decode` on a dict; /repo/teleprox/serializer.py:311-323. -/
def jdecode (R : RecvEnv) (d : List (Val × Val)) : Except Exc Val :=
  match (lookupStr d encodeKey).bind Val.text? with
  | some "ndarray" =>
    match need d "data" with
    | .error e => .error e
    | .ok v =>
      match v.b64 with
      | .error e => .error e
      | .ok data =>
        match need d "dtype" with
        | .ok dt => buildArray (.ok data) (dtypeArg R.lib dt) (lookupStr d "shape")
        | .error e => .error e
  | some "bytes" =>
    match need d "data" with
    | .error e => .error e
    | .ok v =>
      match v.b64 with
      | .ok b => .ok (.bytes b)
      | .error e => .error e
  | _ => decode R d

mutual
/-- `json.loads(msg, object_hook=self.decode)`; /repo/teleprox/serializer.py:291. Keys of a JSON object are
always strings. -/
def junpack (R : RecvEnv) : Wire → Except Exc Val
  | .nil => .ok .none
  | .bool b => .ok (.bool b)
  | .int i => .ok (.int i)
  | .float f => .ok (.float f)
  | .str s => .ok (.str s)
  | .bin _ => .error .valueError
  | .arr l =>
    match junpackL R l with
    | .ok vs => .ok (.list vs)
    | .error e => .error e
  | .map m =>
    match junpackM R m with
    | .ok d => jdecode R (dictOf d)
    | .error e => .error e

/-- Items of an array. Part of /repo/teleprox/serializer.py:291. -/
def junpackL (R : RecvEnv) : List Wire → Except Exc (List Val)
  | [] => .ok []
  | w :: ws =>
    match junpack R w with
    | .error e => .error e
    | .ok v =>
      match junpackL R ws with
      | .ok vs => .ok (v :: vs)
      | .error e => .error e

/-- Entries of an object. Part of /repo/teleprox/serializer.py:291. -/
def junpackM (R : RecvEnv) : List (Wire × Wire) → Except Exc (List (Val × Val))
  | [] => .ok []
  | (.str k, w) :: r =>
    match junpack R w with
    | .error e => .error e
    | .ok v =>
      match junpackM R r with
      | .ok d => .ok ((.str k, v) :: d)
      | .error e => .error e
  | (_, _) :: _ => .error .valueError
end

/-- Python's default recursion limit. Limit of /repo/teleprox/serializer.py:286, 291. -/
def jsonDepth : Nat := 1000

/-- `JsonSerializer.dumps`; /repo/teleprox/serializer.py:283-286. -/
def jsonDumps (E : SendEnv) (t : Refs) (v : Val) : Refs × Except Exc Wire := jpack E jsonDepth t v

/-- `JsonSerializer.loads`; /repo/teleprox/serializer.py:288-291. -/
def jsonLoads (R : RecvEnv) (w : Wire) : Except Exc Val := junpack R w

end Verif
