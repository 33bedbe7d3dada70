import Verif.Model.Serializer
import Verif.Spec.Refs
/-!
# Specification of value transport

Independent of how messages are built: which values can travel (`Sendable`), and what the receiver gets for a
sent value (`Arrives` for msgpack, `JArrives` for JSON).
-/
namespace Verif

/-- A multi-index inside a shape. -/
def InShape : List Nat → List Nat → Prop
  | [], [] => True
  | i :: is, n :: ns => i < n ∧ InShape is ns
  | _, _ => False

/-- Same dtype, shape and element at every index. -/
def SameArray (a b : NdArray) : Prop :=
  b.dtype = a.dtype ∧ b.shape = a.shape ∧ ∀ idx, InShape idx a.shape → b.elem idx = a.elem idx

/-- What a receiver makes of a proxy: its owner unwraps it, everyone else keeps it. -/
def received (R : RecvEnv) (p : Proxy) : Except Exc Val :=
  match R.server with
  | some (addr, unwrap) => if p.addr = addr then unwrap p else .ok (.proxy p)
  | none => .ok (.proxy p)

/-- Kinds of values whose subclasses are sent as the plain kind. -/
def Val.flattened (v : Val) : Bool :=
  match v.core with
  | .tuple _ | .datetime _ | .date _ | .ndarray _ | .proxy _ | .npScalar _ | .none => true
  | _ => false

/-- Array dtypes whose bytes can be sent and restored. -/
def DType.sendable (L : Lib) (d : DType) : Prop :=
  L.known d = true ∧ d.itemsize ≠ 0 ∧ d.kind ≠ .object ∧ startsWithC '{' d.name = false

/-- Numpy scalars with an exact Python counterpart. -/
def NpScalar.exact (s : NpScalar) : Prop :=
  match s.dtype.kind, s.val with
  | .bool, .bool _ => True
  | .integer, .int _ => True
  | .floating, .float _ => True
  | _, _ => False

/-- A date the wire format can represent. -/
def yearOk (L : Lib) (y : Nat) : Prop := 1000 ≤ y ∨ L.padYear = true

/-- Dict items: keys are str or bytes, pairwise different, and none is the reserved key. -/
def KeysOk (d : List (Val × Val)) : Prop :=
  (∀ e ∈ d, keyOk e.1 = true) ∧ d.Pairwise (fun a b => keyEq a.1 b.1 = false) ∧ lookupStr d encodeKey = none

mutual
/-- Values the msgpack serializer is meant to carry, for receiver `R`: dates in range, arrays of plain or
structured dtype, dicts with str/bytes keys other than the reserved one, proxies the receiver can handle. -/
def Sendable (R : RecvEnv) : Val → Prop
  | .list l => SendableL R l
  | .tuple l => SendableL R l
  | .dict d => KeysOk d ∧ SendableD R d
  | .datetime d => d.valid = true ∧ yearOk R.lib d.year
  | .date d => d.valid = true ∧ yearOk R.lib d.year
  | .ndarray a => a.dtype.sendable R.lib
  | .npScalar s => s.exact ∧ R.lib.known s.dtype = true
  | .proxy p => ∃ v, received R p = .ok v
  | .sub _ v => v.flattened = true → Sendable R v
  | _ => True
/-- See `Sendable`. -/
def SendableL (R : RecvEnv) : List Val → Prop
  | [] => True
  | v :: vs => Sendable R v ∧ SendableL R vs
/-- See `Sendable`. -/
def SendableD (R : RecvEnv) : List (Val × Val) → Prop
  | [] => True
  | (_, v) :: vs => Sendable R v ∧ SendableD R vs
end

mutual
/-- `Arrives tys P v v'`: sending `v` with serialize types `tys`, the receiver gets `v'`. Everything keeps
type and value, except: a datetime loses timezone and fold; an array arrives as a plain contiguous array with
equal elements; instances of subclasses of tuple, datetime, date, ndarray arrive as the base class; proxies and
objects outside the serialize types arrive as `P` says. -/
def Arrives (tys : List Ty) (P : Val → Val → Prop) : Val → Val → Prop
  | .list l, v' => ∃ l', v' = .list l' ∧ ArrivesL tys P l l'
  | .tuple l, v' => ∃ l', v' = .tuple l' ∧ ArrivesL tys P l l'
  | .dict d, v' => ∃ d', v' = .dict d' ∧ ArrivesD tys P d d'
  | .datetime d, v' => v' = .datetime { d with tz := none, fold := false }
  | .ndarray a, v' => ∃ b, v' = .ndarray b ∧ SameArray a b ∧ b.sub = none
  | .proxy p, v' => P (.proxy p) v'
  | .sub c v, v' =>
    if v.flattened then Arrives tys P v v'
    else if (Val.sub c v).isinstance tys then v' = .sub c v else P (.sub c v) v'
  | .obj o ts, v' => if (Val.obj o ts).isinstance tys then v' = .obj o ts else P (.obj o ts) v'
  | v, v' => v' = v
/-- See `Arrives`. -/
def ArrivesL (tys : List Ty) (P : Val → Val → Prop) : List Val → List Val → Prop
  | [], l' => l' = []
  | v :: vs, l' => ∃ v' vs', l' = v' :: vs' ∧ Arrives tys P v v' ∧ ArrivesL tys P vs vs'
/-- See `Arrives`; keys are unchanged. -/
def ArrivesD (tys : List Ty) (P : Val → Val → Prop) : List (Val × Val) → List (Val × Val) → Prop
  | [], d' => d' = []
  | (k, v) :: vs, d' => ∃ v' vs', d' = (k, v') :: vs' ∧ Arrives tys P v v' ∧ ArrivesD tys P vs vs'
end


mutual
/-- Some object of a class outside the serialize types occurs in the value (at any depth; contents of pickled
values do not count, they are pickled as a whole). -/
def Foreign (tys : List Ty) : Val → Prop
  | .list l => ForeignL tys l
  | .tuple l => ForeignL tys l
  | .dict d => ForeignD tys d
  | .sub c v => if v.flattened then Foreign tys v else (Val.sub c v).isinstance tys = false
  | .obj o ts => (Val.obj o ts).isinstance tys = false
  | _ => False
/-- See `Foreign`. -/
def ForeignL (tys : List Ty) : List Val → Prop
  | [] => False
  | v :: vs => Foreign tys v ∨ ForeignL tys vs
/-- See `Foreign`. -/
def ForeignD (tys : List Ty) : List (Val × Val) → Prop
  | [] => False
  | (_, v) :: vs => Foreign tys v ∨ ForeignD tys vs
end

mutual
/-- The value is serializable apart from foreign objects: what must be pickled can be, keys are str or bytes,
numpy scalars are real numbers. -/
def Packable (L : Lib) (tys : List Ty) : Val → Prop
  | .list l => PackableL L tys l
  | .tuple l => PackableL L tys l
  | .dict d => (∀ e ∈ d, keyOk e.1 = true) ∧ PackableD L tys d
  | .npScalar s => s.exact ∧ L.known s.dtype = true
  | .dtype d => L.known d = true
  | .sub c v =>
    if v.flattened then Packable L tys v
    else (Val.sub c v).isinstance tys = true → ∃ b, L.pickleDumps (.sub c v) = .ok b
  | .obj o ts => (Val.obj o ts).isinstance tys = true → ∃ b, L.pickleDumps (.obj o ts) = .ok b
  | _ => True
/-- See `Packable`. -/
def PackableL (L : Lib) (tys : List Ty) : List Val → Prop
  | [] => True
  | v :: vs => Packable L tys v ∧ PackableL L tys vs
/-- See `Packable`. -/
def PackableD (L : Lib) (tys : List Ty) : List (Val × Val) → Prop
  | [] => True
  | (_, v) :: vs => Packable L tys v ∧ PackableD L tys vs
end

mutual
/-- Nesting depth of the message for a value (a tuple costs two levels, a foreign object four, an array five). -/
def Val.depth : Val → Nat
  | .list l => 1 + depthL l
  | .tuple l => 2 + depthL l
  | .dict d => 1 + depthD d
  | .int i => if -(2 : Int) ^ 63 ≤ i ∧ i < 2 ^ 64 then 1 else 2
  | .datetime _ | .date _ | .dtype _ => 2
  | .npScalar _ => 3
  | .ndarray _ => 5
  | .proxy _ => 4
  | .obj _ _ => 4
  | .sub _ v => if v.flattened then max 2 v.depth else 4
  | _ => 1
/-- See `Val.depth`. -/
def depthL : List Val → Nat
  | [] => 0
  | v :: vs => max v.depth (depthL vs)
/-- See `Val.depth`. -/
def depthD : List (Val × Val) → Nat
  | [] => 0
  | (_, v) :: vs => max v.depth (depthD vs)
end


mutual
/-- Every proxy occurring in the value satisfies `Q`. -/
def ProxiesIn (Q : Proxy → Prop) : Val → Prop
  | .list l => ProxiesInL Q l
  | .tuple l => ProxiesInL Q l
  | .dict d => ProxiesInD Q d
  | .proxy p => Q p
  | .sub _ v => ProxiesIn Q v
  | _ => True
/-- See `ProxiesIn`. -/
def ProxiesInL (Q : Proxy → Prop) : List Val → Prop
  | [] => True
  | v :: vs => ProxiesIn Q v ∧ ProxiesInL Q vs
/-- See `ProxiesIn`. -/
def ProxiesInD (Q : Proxy → Prop) : List (Val × Val) → Prop
  | [] => True
  | (_, v) :: vs => ProxiesIn Q v ∧ ProxiesInD Q vs
end

/-- A dict key that is neither str nor bytes, nor a proxy or foreign object (which the receiver may turn into
anything). -/
def BadKey (R : RecvEnv) (k : Val) : Prop :=
  Sendable R k ∧ (match k with | .str _ => False | .bytes _ => False | _ => True) ∧
  (match k.core with | .proxy _ => False | .obj _ _ => False | _ => True)

mutual
/-- Some dict occurring in the value has a bad key. -/
def BadKeyIn (R : RecvEnv) : Val → Prop
  | .list l => BadKeyInL R l
  | .tuple l => BadKeyInL R l
  | .dict d => BadKeyInD R d
  | .sub _ v => v.flattened = true ∧ BadKeyIn R v
  | _ => False
/-- See `BadKeyIn`. -/
def BadKeyInL (R : RecvEnv) : List Val → Prop
  | [] => False
  | v :: vs => BadKeyIn R v ∨ BadKeyInL R vs
/-- See `BadKeyIn`. -/
def BadKeyInD (R : RecvEnv) : List (Val × Val) → Prop
  | [] => False
  | (k, v) :: vs => BadKey R k ∨ BadKeyIn R v ∨ BadKeyInD R vs
end


/-- What arrives for proxies and for objects sent by proxy: a proxy is unwrapped by its owner and kept by
everybody else; for an object the receiver gets a proxy of the sender's server that resolves there, in table
`t`, to that object. -/
def ByProxy (E : SendEnv) (R : RecvEnv) (t : Refs) (u v' : Val) : Prop :=
  match u with
  | .proxy p => received R p = .ok v'
  | u => ∃ p, v' = .proxy p ∧ E.server = some p.addr ∧ t.lookup p.oid = .ok (E.ident u) ∧ p.attrs = [] ∧
      p.typeStr = E.typeStr u

/-- The receiver is not the sender's own server. -/
def NotOwner (E : SendEnv) (R : RecvEnv) : Prop := ∀ addr unwrap, R.server = some (addr, unwrap) → E.server ≠ some addr

/-- The operation raises. -/
def Fails {α : Type} (r : Except Exc α) : Prop := ∃ e, r = .error e

/-- Python's guarantee about `id()` for the values about to be sent: they are alive together with one another
and with every object that has an outstanding proxy. -/
structure Alive (E : SendEnv) (h : RefHistory) : Prop where
  sent : ∀ u u', E.idOf (E.ident u) = E.idOf (E.ident u') → E.ident u = E.ident u'
  held : ∀ x ∈ outstanding h, ∀ u, E.idOf x.obj = E.idOf (E.ident u) → x.obj = E.ident u

/-! ## JSON -/

/-- Kinds of values whose subclasses JSON sends as the plain kind (everything but dtypes and other objects). -/
def Val.jflattened (v : Val) : Bool :=
  match v.core with
  | .dtype _ | .obj _ _ => false
  | _ => true

/-- Dict items: keys have a JSON name, the names are pairwise different and none is the reserved key. -/
def JKeysOk (L : Lib) (d : List (Val × Val)) : Prop :=
  (∀ e ∈ d, ∃ s, jkey L e.1 = .ok s) ∧ d.Pairwise (fun a b => jkey L a.1 ≠ jkey L b.1) ∧
  ∀ e ∈ d, jkey L e.1 ≠ .ok encodeKey

mutual
/-- Values the JSON serializer is meant to carry, for receiver `R`. -/
def JSendable (R : RecvEnv) : Val → Prop
  | .list l => JSendableL R l
  | .tuple l => JSendableL R l
  | .dict d => JKeysOk R.lib d ∧ JSendableD R d
  | .datetime d => d.valid = true ∧ yearOk R.lib d.year
  | .date d => d.valid = true ∧ yearOk R.lib d.year
  | .ndarray a => a.dtype.sendable R.lib ∧ startsWithC '[' a.dtype.name = false
  | .npScalar s => s.exact ∧ R.lib.known s.dtype = true
  | .proxy p => ∃ v, received R p = .ok v
  | .sub _ v => v.jflattened = true → JSendable R v
  | _ => True
/-- See `JSendable`. -/
def JSendableL (R : RecvEnv) : List Val → Prop
  | [] => True
  | v :: vs => JSendable R v ∧ JSendableL R vs
/-- See `JSendable`. -/
def JSendableD (R : RecvEnv) : List (Val × Val) → Prop
  | [] => True
  | (_, v) :: vs => JSendable R v ∧ JSendableD R vs
end

mutual
/-- `JArrives L tys P v v'`: sending `v` by JSON, the receiver gets `v'`. As `Arrives`, but tuples arrive as
lists, float64 scalars as floats, dict keys as their JSON names, and instances of subclasses of every built-in
kind as the base class. -/
def JArrives (L : Lib) (tys : List Ty) (P : Val → Val → Prop) : Val → Val → Prop
  | .list l, v' => ∃ l', v' = .list l' ∧ JArrivesL L tys P l l'
  | .tuple l, v' => ∃ l', v' = .list l' ∧ JArrivesL L tys P l l'
  | .dict d, v' => ∃ d', v' = .dict d' ∧ JArrivesD L tys P d d'
  | .datetime d, v' => v' = .datetime { d with tz := none, fold := false }
  | .ndarray a, v' => ∃ b, v' = .ndarray b ∧ SameArray a b ∧ b.sub = none
  | .npScalar s, v' =>
    match s.dtype.kind, s.dtype.itemsize, s.val with
    | .floating, 8, .float f => v' = .float f
    | _, _, _ => v' = .npScalar s
  | .proxy p, v' => P (.proxy p) v'
  | .sub c v, v' =>
    if v.jflattened then JArrives L tys P v v'
    else if (Val.sub c v).isinstance tys then v' = .sub c v else P (.sub c v) v'
  | .obj o ts, v' => if (Val.obj o ts).isinstance tys then v' = .obj o ts else P (.obj o ts) v'
  | v, v' => v' = v
/-- See `JArrives`. -/
def JArrivesL (L : Lib) (tys : List Ty) (P : Val → Val → Prop) : List Val → List Val → Prop
  | [], l' => l' = []
  | v :: vs, l' => ∃ v' vs', l' = v' :: vs' ∧ JArrives L tys P v v' ∧ JArrivesL L tys P vs vs'
/-- See `JArrives`. -/
def JArrivesD (L : Lib) (tys : List Ty) (P : Val → Val → Prop) : List (Val × Val) → List (Val × Val) → Prop
  | [], d' => d' = []
  | (k, v) :: vs, d' => ∃ s v' vs', d' = (.str s, v') :: vs' ∧ jkey L k = .ok s ∧ JArrives L tys P v v' ∧
      JArrivesD L tys P vs vs'
end

mutual
/-- Some object that JSON can only send by proxy occurs in the value. -/
def JForeign (tys : List Ty) : Val → Prop
  | .list l => JForeignL tys l
  | .tuple l => JForeignL tys l
  | .dict d => JForeignD tys d
  | .sub c v => if v.jflattened then JForeign tys v else (Val.sub c v).isinstance tys = false
  | .obj o ts => (Val.obj o ts).isinstance tys = false
  | _ => False
/-- See `JForeign`. -/
def JForeignL (tys : List Ty) : List Val → Prop
  | [] => False
  | v :: vs => JForeign tys v ∨ JForeignL tys vs
/-- See `JForeign`. -/
def JForeignD (tys : List Ty) : List (Val × Val) → Prop
  | [] => False
  | (_, v) :: vs => JForeign tys v ∨ JForeignD tys vs
end

mutual
/-- The value is JSON-serializable apart from foreign objects: what must be pickled can be, keys have JSON
names, numpy scalars are real numbers, arrays have buffers. -/
def JPackable (L : Lib) (tys : List Ty) : Val → Prop
  | .list l => JPackableL L tys l
  | .tuple l => JPackableL L tys l
  | .dict d => (∀ e ∈ d, ∃ s, jkey L e.1 = .ok s) ∧ JPackableD L tys d
  | .npScalar s => s.exact ∧ L.known s.dtype = true
  | .ndarray a => a.dtype.bufferable = true
  | .dtype d => L.known d = true
  | .sub c v =>
    if v.jflattened then JPackable L tys v
    else (Val.sub c v).isinstance tys = true → ∃ b, L.pickleDumps (.sub c v) = .ok b
  | .obj o ts => (Val.obj o ts).isinstance tys = true → ∃ b, L.pickleDumps (.obj o ts) = .ok b
  | _ => True
/-- See `JPackable`. -/
def JPackableL (L : Lib) (tys : List Ty) : List Val → Prop
  | [] => True
  | v :: vs => JPackable L tys v ∧ JPackableL L tys vs
/-- See `JPackable`. -/
def JPackableD (L : Lib) (tys : List Ty) : List (Val × Val) → Prop
  | [] => True
  | (_, v) :: vs => JPackable L tys v ∧ JPackableD L tys vs
end

mutual
/-- Nesting depth of the JSON text for a value (bytes and dates cost two levels, arrays, proxies and pickled
values three, numpy scalars four). -/
def Val.jdepth : Val → Nat
  | .list l => 1 + jdepthL l
  | .tuple l => 1 + jdepthL l
  | .dict d => 1 + jdepthD d
  | .datetime _ | .date _ | .bytes _ => 2
  | .npScalar _ => 4
  | .ndarray _ | .proxy _ | .obj _ _ | .dtype _ => 3
  | .sub _ v => if v.jflattened then v.jdepth else 3
  | _ => 1
/-- See `Val.jdepth`. -/
def jdepthL : List Val → Nat
  | [] => 0
  | v :: vs => max v.jdepth (jdepthL vs)
/-- See `Val.jdepth`. -/
def jdepthD : List (Val × Val) → Nat
  | [] => 0
  | (_, v) :: vs => max v.jdepth (jdepthD vs)
end

mutual
/-- Some dict occurring in the value has a key JSON has no name for (bytes, tuples, ...). -/
def JBadKeyIn (L : Lib) : Val → Prop
  | .list l => JBadKeyInL L l
  | .tuple l => JBadKeyInL L l
  | .dict d => JBadKeyInD L d
  | .sub _ v => JBadKeyIn L v
  | _ => False
/-- See `JBadKeyIn`. -/
def JBadKeyInL (L : Lib) : List Val → Prop
  | [] => False
  | v :: vs => JBadKeyIn L v ∨ JBadKeyInL L vs
/-- See `JBadKeyIn`. -/
def JBadKeyInD (L : Lib) : List (Val × Val) → Prop
  | [] => False
  | (k, v) :: vs => (match k.core with
      | .str _ | .float _ | .bool _ | .none | .int _ => False
      | _ => True) ∨ JBadKeyIn L v ∨ JBadKeyInD L vs
end

/-! ## Values that come back identical -/

/-- The two ends of a connection: the same libraries, which obey their laws; the serialize types include the
default ones; the receiver is not the sender's own server. -/
structure Link (L : Lib) (E : SendEnv) (R : RecvEnv) : Prop where
  laws : L.Laws
  sender : E.lib = L
  receiver : R.lib = L
  types : ∀ ty ∈ defaultTypes, ty ∈ E.tys
  notOwner : NotOwner E R

mutual
/-- Values the property promises to restore identically: naive datetimes, no arrays (compared by elements
instead), no objects that need a proxy, no subclasses that lose their class, proxies satisfying `Q`. -/
def Exact (tys : List Ty) (Q : Proxy → Prop) : Val → Prop
  | .list l => ExactL tys Q l
  | .tuple l => ExactL tys Q l
  | .dict d => ExactD tys Q d
  | .datetime d => d.tz = none ∧ d.fold = false
  | .ndarray _ => False
  | .proxy p => Q p
  | .sub c v => v.flattened = false ∧ (Val.sub c v).isinstance tys = true
  | .obj o ts => (Val.obj o ts).isinstance tys = true
  | _ => True
/-- See `Exact`. -/
def ExactL (tys : List Ty) (Q : Proxy → Prop) : List Val → Prop
  | [] => True
  | v :: vs => Exact tys Q v ∧ ExactL tys Q vs
/-- See `Exact`. -/
def ExactD (tys : List Ty) (Q : Proxy → Prop) : List (Val × Val) → Prop
  | [] => True
  | (_, v) :: vs => Exact tys Q v ∧ ExactD tys Q vs
end

mutual
/-- As `Exact`, for JSON: keys are plain str, and no built-in subclasses. -/
def JExact (tys : List Ty) (Q : Proxy → Prop) : Val → Prop
  | .list l => JExactL tys Q l
  | .tuple l => JExactL tys Q l
  | .dict d => JExactD tys Q d
  | .datetime d => d.tz = none ∧ d.fold = false
  | .ndarray _ => False
  | .proxy p => Q p
  | .sub c v => v.jflattened = false ∧ (Val.sub c v).isinstance tys = true
  | .obj o ts => (Val.obj o ts).isinstance tys = true
  | _ => True
/-- See `JExact`. -/
def JExactL (tys : List Ty) (Q : Proxy → Prop) : List Val → Prop
  | [] => True
  | v :: vs => JExact tys Q v ∧ JExactL tys Q vs
/-- See `JExact`. -/
def JExactD (tys : List Ty) (Q : Proxy → Prop) : List (Val × Val) → Prop
  | [] => True
  | (k, v) :: vs => (∃ s, k = .str s) ∧ JExact tys Q v ∧ JExactD tys Q vs
end

mutual
/-- The value with every tuple replaced by the list of its items and every float64 scalar by the plain float. -/
def jsonView : Val → Val
  | .list l => .list (jsonViewL l)
  | .tuple l => .list (jsonViewL l)
  | .dict d => .dict (jsonViewD d)
  | .npScalar s =>
    match s.dtype.kind, s.dtype.itemsize, s.val with
    | .floating, 8, .float f => .float f
    | _, _, _ => .npScalar s
  | v => v
/-- See `jsonView`. -/
def jsonViewL : List Val → List Val
  | [] => []
  | v :: vs => jsonView v :: jsonViewL vs
/-- See `jsonView`. -/
def jsonViewD : List (Val × Val) → List (Val × Val)
  | [] => []
  | (k, v) :: vs => (k, jsonView v) :: jsonViewD vs
end

/-- What the owner of the proxies finds in place of a value that went out and came back: an object it sent by
proxy is the object itself (`view` shows the object with a given identity), a proxy is what the owner makes
of it. -/
def BackHome (E : SendEnv) (R : RecvEnv) (view : Obj → Val) (u v' : Val) : Prop :=
  match u with
  | .proxy p => received R p = .ok v'
  | u => v' = view (E.ident u)

/-- `getattr(... getattr(v, a1) ..., an)` gives `x`, each step on the result of the one before. -/
inductive AttrChain (ga : Val → String → Except Exc Val) : Val → List String → Val → Prop where
  | nil (v) : AttrChain ga v [] v
  | cons {v a v' as x} : ga v a = .ok v' → AttrChain ga v' as x → AttrChain ga v (a :: as) x

/-- The chain of attributes raises `e`: all accesses before some attribute succeed, and that one raises `e`. -/
def AttrRaises (ga : Val → String → Except Exc Val) (v : Val) (attrs : List String) (e : Exc) : Prop :=
  ∃ pre a post v', attrs = pre ++ a :: post ∧ AttrChain ga v pre v' ∧ ga v' a = .error e

/-- The value of the last item named `k`. -/
def lastStr (d : List (Val × Val)) (k : String) : Option Val :=
  match d with
  | [] => none
  | (.str s, v) :: r => match lastStr r k with
    | some x => some x
    | none => if s = k then some v else none
  | _ :: r => lastStr r k

end Verif
