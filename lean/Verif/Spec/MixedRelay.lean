import Verif.Spec.Relay
/-!
# Messages handed on by different serializers

Specification vocabulary for C123. As in `Verif.Spec.Relay`, but every hop uses the serializer of its own connection:
msgpack (/repo/teleprox/serializer.py:239-259) or JSON (/repo/teleprox/serializer.py:274-291).
-/
namespace Verif

/-- A hop and whether its connection uses JSON (otherwise msgpack). Ends of /repo/teleprox/serializer.py:239-291. -/
structure MixedHop where
  hop : Hop
  json : Bool

/-- One transport. Either /repo/teleprox/serializer.py:239-259 or 274-291. -/
def MixedHop.carry (h : MixedHop) (v : Val) : Except Exc Val :=
  if h.json then
    match jsonDumps h.hop.sender h.hop.table v with
    | (_, .error e) => .error e
    | (_, .ok w) => jsonLoads h.hop.receiver w
  else
    match msgpackDumps h.hop.sender h.hop.table v with
    | (_, .error e) => .error e
    | (_, .ok w) => msgpackLoads h.hop.receiver w

/-- What the last receiver gets. Repeated use of /repo/teleprox/serializer.py:239-291. -/
def mixedRelay : List MixedHop → Val → Except Exc Val
  | [], v => .ok v
  | h :: hs, v =>
    match h.carry v with
    | .error e => .error e
    | .ok v' => mixedRelay hs v'

/-- Dict keys both serializers restore: pairwise different strings other than the reserved one. -/
def PlainKeys (d : List (Val × Val)) : Prop :=
  ∃ names : List String, d.map (·.1) = names.map Val.str ∧ names.Nodup ∧ "___type_name___" ∉ names

mutual
/-- Values both serializers are meant to carry without loss: any nesting of lists, tuples and dicts with plain string
keys around numbers, text, bytes, naive datetimes, dates, numpy scalars and dtypes the library knows, objects of
the serialized types `tys` that can be pickled, and proxies satisfying `Q`. -/
def Common (L : Lib) (tys : List Ty) (Q : Proxy → Prop) : Val → Prop
  | .list l => CommonL L tys Q l
  | .tuple l => CommonL L tys Q l
  | .dict d => PlainKeys d ∧ CommonD L tys Q d
  | .datetime d => d.valid = true ∧ yearOk L d.year ∧ d.tz = none ∧ d.fold = false
  | .date d => d.valid = true ∧ yearOk L d.year
  | .ndarray _ => False
  | .npScalar s => s.exact ∧ L.known s.dtype = true
  | .dtype d => L.known d = true
  | .proxy p => Q p
  | .sub c v => v.flattened = false ∧ v.jflattened = false ∧ (Val.sub c v).isinstance tys = true ∧
      ∃ b, L.pickleDumps (.sub c v) = .ok b
  | .obj o ts => (Val.obj o ts).isinstance tys = true ∧ ∃ b, L.pickleDumps (.obj o ts) = .ok b
  | _ => True
/-- See `Common`. -/
def CommonL (L : Lib) (tys : List Ty) (Q : Proxy → Prop) : List Val → Prop
  | [] => True
  | v :: vs => Common L tys Q v ∧ CommonL L tys Q vs
/-- See `Common`. -/
def CommonD (L : Lib) (tys : List Ty) (Q : Proxy → Prop) : List (Val × Val) → Prop
  | [] => True
  | (_, v) :: vs => Common L tys Q v ∧ CommonD L tys Q vs
end

end Verif
