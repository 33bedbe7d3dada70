import Verif.Model.ReceivedOptions
/-! # Which proxy objects a message makes, and which values have no say in their options -/
namespace Verif

/-- Reading the message makes the proxy object `q`: some map in it is that of the proxy. `readMap` reads the entries of a
map; `popts` are the options the reader gives. -/
inductive Makes (readMap : List (Wire × Wire) → Except Exc (List (Val × Val))) (popts : Option (Dict String Val)) (q : PObj) : Wire → Prop
  | here {m d} : readMap m = .ok d → decodeMakes popts (dictOf d) = some (.ok q) → Makes readMap popts q (.map m)
  | item {l : List Wire} {w : Wire} : w ∈ l → Makes readMap popts q w → Makes readMap popts q (.arr l)
  | key {m : List (Wire × Wire)} {e : Wire × Wire} : e ∈ m → Makes readMap popts q e.1 → Makes readMap popts q (.map m)
  | value {m : List (Wire × Wire)} {e : Wire × Wire} : e ∈ m → Makes readMap popts q e.2 → Makes readMap popts q (.map m)

mutual
/-- No dict in the value has the key `___type_name___`, and all keys have a name or are bytes. `name` says what
becomes of a key that is no bytes. -/
def Val.tagFree (name : Val → Option String) : Val → Bool
  | .list l => tagFreeL name l
  | .tuple l => tagFreeL name l
  | .dict d => tagFreeD name d
  | .sub _ v => v.tagFree name
  | _ => true
/-- See `Val.tagFree`. -/
def tagFreeL (name : Val → Option String) : List Val → Bool
  | [] => true
  | v :: vs => v.tagFree name && tagFreeL name vs
/-- See `Val.tagFree`. -/
def tagFreeD (name : Val → Option String) : List (Val × Val) → Bool
  | [] => true
  | (k, v) :: vs =>
    (match k, name k with
      | .bytes _, _ => true
      | _, some s => s != "___type_name___"
      | _, none => false) && v.tagFree name && tagFreeD name vs
end

/-- The name of a key in msgpack: str only. -/
def strName : Val → Option String
  | .str s => some s
  | _ => none

/-- The name of a key in JSON. -/
def jsonName (L : Lib) (k : Val) : Option String := (jkey L k).toOption

/-- The option `k` of a proxy object that was read: the reader's, else the message's, else that of a new proxy. -/
def optionOf (popts : Option (Dict String Val)) (d : List (Val × Val)) (k : String) : Option Val :=
  match popts.bind (·.get? k), lookupStr d k with
  | some v, _ => some v
  | none, some v => some v
  | none, none => defaultOptions.get? k

/-- A dict as any program may make it: the fields of a proxy and one more entry. -/
def dressed (p : Proxy) (k : String) (v : Val) : List (Val × Val) :=
  [(.str "___type_name___", .str "proxy"), (.str "rpc_addr", .str p.addr), (.str "obj_id", .int p.oid),
   (.str "ref_id", .int p.rid), (.str "type_str", .str p.typeStr), (.str k, v)]

end Verif
