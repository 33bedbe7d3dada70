import Verif.Spec.Transport
import Verif.Spec.Server
/-! # What a list of serialize types means

The documentation of `RPCClient` (/repo/teleprox/client.py:53-58) says of `serialize_types`: objects of these types are
sent by value, everything else is sent by proxy if the sender has a server, and raises `TypeError` otherwise. -/
namespace Verif

/-- What the receiver has instead of `v` when `v` was sent by proxy: a proxy of the sender's server that resolves there,
in table `t`, to `v` itself. -/
def Wrapped (E : SendEnv) (t : Refs) (v v' : Val) : Prop :=
  ∃ p, v' = .proxy p ∧ E.server = some p.addr ∧ t.lookup p.oid = .ok (E.ident v) ∧ p.attrs = [] ∧ p.typeStr = E.typeStr v

/-- What the receiver has when a value that contains no other values is sent by value. -/
def PlainSent (R : RecvEnv) : Val → Val → Prop
  | .datetime d, v' => v' = .datetime { d with tz := none, fold := false }
  | .ndarray a, v' => ∃ b, v' = .ndarray b ∧ SameArray a b ∧ b.sub = none
  | .proxy p, v' => received R p = .ok v'
  | v, v' => v' = v

mutual
/-- `Selected E R t v v'`: sending `v`, the receiver has `v'`. None, numbers, texts, bytes, lists and dicts are part of
the message format and are always sent by value (integers only up to 64 bits); anything else is sent by value if it is an
instance of a serialize type, and by proxy if not. -/
def Selected (E : SendEnv) (R : RecvEnv) (t : Refs) : Val → Val → Prop
  | .none, v' => v' = .none
  | .bool b, v' => v' = .bool b
  | .float f, v' => v' = .float f
  | .str s, v' => v' = .str s
  | .bytes b, v' => v' = .bytes b
  | .int i, v' => if (-(2 : Int) ^ 63 ≤ i ∧ i < 2 ^ 64) ∨ (Val.int i).isinstance E.tys = true then v' = .int i
      else Wrapped E t (.int i) v'
  | .list l, v' => ∃ l', v' = .list l' ∧ SelectedL E R t l l'
  | .dict d, v' => ∃ d', v' = .dict d' ∧ SelectedD E R t d d'
  | .tuple l, v' => if (Val.tuple l).isinstance E.tys then ∃ l', v' = .tuple l' ∧ SelectedL E R t l l'
      else Wrapped E t (.tuple l) v'
  | .sub c v, v' =>
      if (Val.sub c v).isinstance E.tys then (if v.flattened then AsBase E R t v v' else v' = .sub c v)
      else Wrapped E t (.sub c v) v'
  | v, v' => if v.isinstance E.tys then PlainSent R v v' else Wrapped E t v v'
/-- An instance of a subclass of tuple, datetime, date, ndarray or a numpy scalar class is sent as the base class. -/
def AsBase (E : SendEnv) (R : RecvEnv) (t : Refs) : Val → Val → Prop
  | .tuple l, v' => ∃ l', v' = .tuple l' ∧ SelectedL E R t l l'
  | .sub _ v, v' => AsBase E R t v v'
  | v, v' => PlainSent R v v'
/-- See `Selected`. -/
def SelectedL (E : SendEnv) (R : RecvEnv) (t : Refs) : List Val → List Val → Prop
  | [], l' => l' = []
  | v :: vs, l' => ∃ v' vs', l' = v' :: vs' ∧ Selected E R t v v' ∧ SelectedL E R t vs vs'
/-- See `Selected`; keys are unchanged. -/
def SelectedD (E : SendEnv) (R : RecvEnv) (t : Refs) : List (Val × Val) → List (Val × Val) → Prop
  | [], d' => d' = []
  | (k, v) :: vs, d' => ∃ v' vs', d' = (k, v') :: vs' ∧ Selected E R t v v' ∧ SelectedD E R t vs vs'
end

/-- Lists of types with everything the encodings of arrays, proxies and numpy scalars are made of. -/
structure Fit (tys : List Ty) : Prop where
  tuple : Ty.tuple ∈ tys
  int : Ty.int ∈ tys
  dtype : Ty.npDtype ∈ tys

/-- Lists of types with no class of tuples. -/
def NoTuple (tys : List Ty) : Prop := Ty.tuple ∉ tys ∧ Ty.object ∉ tys

mutual
/-- The value has, itself or inside its lists and dicts, a tuple, an array, a proxy, or something that is not part of the
message format and not an instance of a serialize type. -/
def NeedsTuple (tys : List Ty) : Val → Prop
  | .none | .bool _ | .int _ | .float _ | .str _ | .bytes _ => False
  | .list l => NeedsTupleL tys l
  | .dict d => NeedsTupleD tys d
  | .tuple _ | .ndarray _ | .proxy _ => True
  | v => v.isinstance tys = false
/-- See `NeedsTuple`. -/
def NeedsTupleL (tys : List Ty) : List Val → Prop
  | [] => False
  | v :: vs => NeedsTuple tys v ∨ NeedsTupleL tys vs
/-- See `NeedsTuple`. -/
def NeedsTupleD (tys : List Ty) : List (Val × Val) → Prop
  | [] => False
  | (_, v) :: vs => NeedsTuple tys v ∨ NeedsTupleD tys vs
end

/-! ## JSON -/

/-- What the JSON format has itself, with subclasses, and what `JsonSerializer.encode` handles before it looks at the serialize
types: bytes and arrays. -/
def Val.jnative (v : Val) : Bool :=
  match v.core with
  | .datetime _ | .date _ | .dtype _ | .proxy _ | .obj _ _ => false
  | .npScalar s =>
    match s.dtype.kind, s.dtype.itemsize, s.val with
    | .floating, 8, .float _ => true
    | _, _, _ => false
  | _ => true

mutual
/-- `JSelected E R t v v'`: sending `v` by JSON, the receiver has `v'`. What JSON has itself, bytes and arrays are sent by value
(tuples as lists, keys as their names); anything else is sent by value if it is an instance of a serialize type, and by proxy if
not. -/
def JSelected (E : SendEnv) (R : RecvEnv) (t : Refs) : Val → Val → Prop
  | .list l, v' => ∃ l', v' = .list l' ∧ JSelectedL E R t l l'
  | .tuple l, v' => ∃ l', v' = .list l' ∧ JSelectedL E R t l l'
  | .dict d, v' => ∃ d', v' = .dict d' ∧ JSelectedD E R t d d'
  | .npScalar s, v' =>
    match s.dtype.kind, s.dtype.itemsize, s.val with
    | .floating, 8, .float f => v' = .float f
    | _, _, _ => if (Val.npScalar s).isinstance E.tys then v' = .npScalar s else Wrapped E t (.npScalar s) v'
  | .sub c v, v' =>
    if v.jnative = true ∨ (Val.sub c v).isinstance E.tys = true then (if v.jflattened then JAsBase E R t v v' else v' = .sub c v)
    else Wrapped E t (.sub c v) v'
  | v, v' => if v.jnative = true ∨ v.isinstance E.tys = true then PlainSent R v v' else Wrapped E t v v'
/-- An instance of a subclass is sent as the base class. -/
def JAsBase (E : SendEnv) (R : RecvEnv) (t : Refs) : Val → Val → Prop
  | .list l, v' => ∃ l', v' = .list l' ∧ JSelectedL E R t l l'
  | .tuple l, v' => ∃ l', v' = .list l' ∧ JSelectedL E R t l l'
  | .dict d, v' => ∃ d', v' = .dict d' ∧ JSelectedD E R t d d'
  | .npScalar s, v' =>
    match s.dtype.kind, s.dtype.itemsize, s.val with
    | .floating, 8, .float f => v' = .float f
    | _, _, _ => v' = .npScalar s
  | .sub _ v, v' => JAsBase E R t v v'
  | v, v' => PlainSent R v v'
/-- See `JSelected`. -/
def JSelectedL (E : SendEnv) (R : RecvEnv) (t : Refs) : List Val → List Val → Prop
  | [], l' => l' = []
  | v :: vs, l' => ∃ v' vs', l' = v' :: vs' ∧ JSelected E R t v v' ∧ JSelectedL E R t vs vs'
/-- See `JSelected`. -/
def JSelectedD (E : SendEnv) (R : RecvEnv) (t : Refs) : List (Val × Val) → List (Val × Val) → Prop
  | [], d' => d' = []
  | (k, v) :: vs, d' => ∃ s v' vs', d' = (.str s, v') :: vs' ∧ jkey E.lib k = .ok s ∧ JSelected E R t v v' ∧ JSelectedD E R t vs vs'
end

end Verif
