import Verif.Model.Asks
import Verif.Spec.Exec
/-! # Which processes a message may make its reader contact -/
namespace Verif

/-- The text occurs somewhere in the message. -/
inductive Wire.Mentions (s : String) : Wire → Prop
  | here : Wire.Mentions s (.str s)
  | item {l : List Wire} {w : Wire} : w ∈ l → Wire.Mentions s w → Wire.Mentions s (.arr l)
  | key {m : List (Wire × Wire)} {e : Wire × Wire} : e ∈ m → Wire.Mentions s e.1 → Wire.Mentions s (.map m)
  | value {m : List (Wire × Wire)} {e : Wire × Wire} : e ∈ m → Wire.Mentions s e.2 → Wire.Mentions s (.map m)

/-- The receiver serves neither texts nor proxies. -/
def RecvEnv.servesPlain (R : RecvEnv) : Prop :=
  ∀ a f p v, R.server = some (a, f) → f p = .ok v → v.text? = none ∧ v.proxy? = none

/-- A proxy of another process than the receiver. -/
def Proxy.foreign (R : RecvEnv) (p : Proxy) : Prop := ∀ a f, R.server = some (a, f) → p.addr ≠ a

/-- Dicts that hold a proxy where `decode` uses the field, with the request this makes. -/
def askPlaces (p : Proxy) : List (List (Val × Val) × String × List Val) :=
  let x := Val.proxy p
  let k := Val.str encodeKey
  [([(k, x)], "__eq__", [.str "ndarray"]),
   ([(k, .str "ndarray"), (.str "dtype", x)], "startswith", [.str "["]),
   ([(k, .str "np_number"), (.str "dtype", x), (.str "value", .int 1)], "type", [.int 1]),
   ([(k, .str "tuple"), (.str "data", x)], "__len__", []),
   ([(k, .str "proxy"), (.str "attributes", x)], "__len__", [])]

/-- The same for JSON, where the dtype of an array is not used this way. -/
def jaskPlaces (p : Proxy) : List (List (Val × Val) × String × List Val) := (askPlaces p).eraseIdx 1

end Verif
