import Verif.Model.Refs
/-!
# Python values that travel through the serializers

`Val` describes the Python objects the serializers of /repo/teleprox/serializer.py distinguish.
-/
namespace Verif

/-- A byte string. Used at /repo/teleprox/server.py:241 and /repo/teleprox/serializer.py:303. -/
abbrev Bytes := List UInt8

/-- The classes the serializers test with `isinstance`; /repo/teleprox/serializer.py:39-55. `user n` stands for
any other class (including Qt classes and user-defined ones), `object` for the root class. -/
inductive Ty where
  | objectProxy | noneType | str | bytes | int | float | tuple | list | dict | bool
  | datetime | date | sharedMemory | sharedNDArray
  | npNumber | npBool | npDtype | ndarray
  | object | user (n : Nat)
  deriving DecidableEq, Repr

/-- `default_serialize_types` with numpy and without Qt; /repo/teleprox/serializer.py:39-46. The Qt classes
added on lines 48-55 are further `user` classes; the theorems that mention this list say so. -/
def defaultTypes : List Ty :=
  [.objectProxy, .noneType, .str, .bytes, .int, .float, .tuple, .list, .dict, .bool,
   .datetime, .date, .sharedMemory, .sharedNDArray, .npNumber, .npBool, .npDtype, .ndarray]

/-- Groups of numpy dtypes the code treats differently. For /repo/teleprox/serializer.py:130-138. -/
inductive DKind where
  | bool | integer | timedelta | floating | longdouble | complex   -- `np.number`/`np.bool_` scalars
  | other       -- strings, void, datetime64 without buffer support, ...
  | object      -- holds pointers
  deriving DecidableEq, Repr

/-- A numpy dtype: `str(dtype)`, its item size, its group, whether `memoryview` accepts it (`obj.data`).
Used at /repo/teleprox/serializer.py:114, 142, 172. -/
structure DType where
  name : String
  itemsize : Nat
  kind : DKind
  bufferable : Bool
  deriving DecidableEq, Repr

/-- A numpy array: a window (offset, strides in bytes, shape) on a byte buffer. `strides` and `shape` have
the same length in well-formed arrays (`NdArray.WF`). `sub` tells that the object is an instance of a proper
subclass of `ndarray` (e.g. `np.matrix`, masked array). Used at /repo/teleprox/serializer.py:108-115, 172. -/
structure NdArray where
  dtype : DType
  shape : List Nat
  strides : List Int
  offset : Int
  buf : Bytes
  sub : Option Nat
  deriving DecidableEq, Repr

/-- The Python number a numpy scalar converts to. Floats are IEEE-754 bit patterns. /repo/teleprox/serializer.py:131-138. -/
inductive NpVal where
  | bool (b : Bool) | int (i : Int) | float (bits : Nat) | other (n : Nat)
  deriving DecidableEq, Repr

/-- A numpy scalar. Used at /repo/teleprox/serializer.py:130-144, 176. -/
structure NpScalar where
  dtype : DType
  val : NpVal
  deriving DecidableEq, Repr

/-- `datetime.datetime`; `tz` is the UTC offset in seconds of an aware datetime. Used at /repo/teleprox/serializer.py:120-122, 178. -/
structure DateTime where
  year : Nat
  month : Nat
  day : Nat
  hour : Nat
  minute : Nat
  second : Nat
  micro : Nat
  tz : Option Int
  fold : Bool
  deriving DecidableEq, Repr

/-- `datetime.date`. Used at /repo/teleprox/serializer.py:123-125, 180. -/
structure Date where
  year : Nat
  month : Nat
  day : Nat
  deriving DecidableEq, Repr

/-- The state of an `ObjectProxy` that travels; /repo/teleprox/proxy.py:83-137. Simplifications: the address
is kept as text (`_rpc_addr` is its UTF-8 encoding), ids are natural numbers, attribute names are strings;
the options, which `dumps` never writes (see C130 for options in messages from others), are modelled in `Verif.Model.Proxy`. -/
structure Proxy where
  addr : String
  oid : Nat
  rid : Nat
  typeStr : String
  attrs : List String
  deriving DecidableEq, Repr

/-- Python values. Floats are bit patterns; strings hold Unicode scalar values only (simplification: no
lone surrogates). `sub c v` is an instance of a proper subclass `c` of the class of `v`, behaving like `v`
(e.g. `OrderedDict`, `IntEnum` member, namedtuple). `obj o tys` is any other object with identity `o` whose
classes are `tys` (functions, modules, sets, SharedMemory, ...).
The values of /repo/teleprox/serializer.py:39-55 and those that are not among them. -/
inductive Val where
  | none
  | bool (b : Bool)
  | int (i : Int)
  | float (bits : Nat)
  | str (s : String)
  | bytes (b : Bytes)
  | list (l : List Val)
  | tuple (l : List Val)
  | dict (d : List (Val × Val))
  | datetime (d : DateTime)
  | date (d : Date)
  | ndarray (a : NdArray)
  | npScalar (s : NpScalar)
  | dtype (d : DType)
  | proxy (p : Proxy)
  | sub (cls : Nat) (base : Val)
  | obj (o : Obj) (tys : List Ty)
  deriving Repr, Inhabited

/-- The classes of a value among `Ty` (its `type(v).__mro__`). For `isinstance` at /repo/teleprox/serializer.py:102-130, 294, 303. -/
def Val.types : Val → List Ty
  | .none => [.noneType, .object]
  | .bool _ => [.bool, .int, .object]
  | .int _ => [.int, .object]
  | .float _ => [.float, .object]
  | .str _ => [.str, .object]
  | .bytes _ => [.bytes, .object]
  | .list _ => [.list, .object]
  | .tuple _ => [.tuple, .object]
  | .dict _ => [.dict, .object]
  | .datetime _ => [.datetime, .date, .object]
  | .date _ => [.date, .object]
  | .ndarray a => (match a.sub with | some c => [Ty.user c] | Option.none => []) ++ [.ndarray, .object]
  | .npScalar s =>
    match s.dtype.kind with
    | .bool => [.npBool, .object]
    | .floating => if s.dtype.itemsize = 8 then [.npNumber, .float, .object] else [.npNumber, .object]
    | .integer | .timedelta | .longdouble | .complex => [.npNumber, .object]
    | .other | .object => [.object]
  | .dtype _ => [.npDtype, .object]
  | .proxy _ => [.objectProxy, .object]
  | .sub c v => .user c :: v.types
  | .obj _ tys => tys ++ [.object]

/-- `isinstance(v, tys)`. /repo/teleprox/serializer.py:102-130, 294, 303. -/
def Val.isinstance (v : Val) (tys : List Ty) : Bool := v.types.any (· ∈ tys)

/-- Lookup of a string key in a Python dict given by its items (`d['k']`, `d.get('k')`).
Used at /repo/teleprox/serializer.py:160-187 and /repo/teleprox/client.py:548-557. -/
def lookupStr (d : List (Val × Val)) (k : String) : Option Val :=
  match d with
  | [] => Option.none
  | (.str s, v) :: r => if s = k then some v else lookupStr r k
  | _ :: r => lookupStr r k

/-- Removal of a string key (`d.pop('k', None)` without its result). /repo/teleprox/serializer.py:160. -/
def removeStr (d : List (Val × Val)) (k : String) : List (Val × Val) :=
  match d with
  | [] => []
  | (.str s, v) :: r => if s = k then removeStr r k else (.str s, v) :: removeStr r k
  | e :: r => e :: removeStr r k

end Verif
