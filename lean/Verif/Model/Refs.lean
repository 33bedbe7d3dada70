import Verif.Model.Py
/-!
# The server's proxy reference table

Models the part of `RPCServer` that hands out, resolves and releases proxies:
`get_proxy`, `_get_object_id`, `unwrap_proxy` (lookup part) and the `delete` action.
-/
namespace Verif

/-- A Python object of the server process, identified by its true identity (never reused). `id(obj)` is a
separate function `idOf : Obj → Nat`, which may give the same number to two objects that are not alive
at the same time. Used at /repo/teleprox/server.py:193-228. -/
abbrev Obj := Nat

/-- The reference-table fields of `RPCServer`: `_next_object_id`, `_next_ref_id`, `_proxy_refs`
(`obj_id: [object, set(refs)]`), `_proxy_id_map` (`id(obj): obj_id`); /repo/teleprox/server.py:168-181.
Simplification: a Python set of ref ids is a list without duplicates. -/
structure Refs where
  nextOid : Nat
  nextRid : Nat
  refs : Dict Nat (Obj × List Nat)
  idMap : Dict Nat Nat
  deriving DecidableEq, Repr

/-- The empty table of a new server; /repo/teleprox/server.py:173-181. -/
def Refs.init : Refs := ⟨0, 0, [], []⟩

/-- The keys of `ObjectProxy._proxy_options`; /repo/teleprox/proxy.py:104-113. -/
def optionNames : List String :=
  ["sync", "timeout", "return_type", "defer_getattr", "no_proxy_types", "auto_delete", "safe_print"]

/-- `_get_object_id`; /repo/teleprox/server.py:208-214. -/
def Refs.getObjectId (idOf : Obj → Nat) (t : Refs) (o : Obj) : Refs × Nat :=
  match t.idMap.get? (idOf o) with
  | none => ({ t with nextOid := t.nextOid + 1, idMap := t.idMap.set (idOf o) t.nextOid }, t.nextOid)
  | some oid => (t, oid)

/-- `set.add`. Used at /repo/teleprox/server.py:202-204. -/
def setAdd (s : List Nat) (r : Nat) : List Nat := if r ∈ s then s else s ++ [r]

/-- `get_proxy(obj, **kwds)`; /repo/teleprox/server.py:193-206. `kwds` are the names of the given keyword
arguments; `ObjectProxy.__init__` calls `_set_proxy_options`, which raises `KeyError` for an unknown one
(/repo/teleprox/proxy.py:89, 225-227) after the ids were taken. Returns the pair (obj_id, ref_id) of the
new proxy. Simplification: `str(type(obj))` is assumed not to raise; the remaining proxy fields are added
by `Server.mkProxy`. -/
def Refs.getProxy (idOf : Obj → Nat) (t : Refs) (o : Obj) (kwds : List String := []) :
    Refs × Except Exc (Nat × Nat) :=
  let rid := t.nextRid
  let t := { t with nextRid := t.nextRid + 1 }
  let (t, oid) := t.getObjectId idOf o
  if kwds.all (· ∈ optionNames) then
    -- proxy_ref = self._proxy_refs.setdefault(oid, [obj, set()]); proxy_ref[1].add(rid)
    let ref := (t.refs.get? oid).getD (o, [])
    ({ t with refs := t.refs.set oid (ref.1, setAdd ref.2 rid) }, .ok (oid, rid))
  else
    (t, .error .keyError)

/-- The object lookup of `unwrap_proxy`; /repo/teleprox/server.py:216-224 (attributes are applied by
`Server.unwrap`). -/
def Refs.lookup (t : Refs) (oid : Nat) : Except Exc Obj :=
  match t.refs.get? oid with
  | some (o, _) => .ok o
  | none => .error .keyError

/-- The `delete` action; /repo/teleprox/server.py:364-370. -/
def Refs.delete (idOf : Obj → Nat) (t : Refs) (oid rid : Nat) : Refs × Except Exc Unit :=
  match t.refs.get? oid with
  | none => (t, .error .keyError)
  | some (o, s) =>
    if rid ∈ s then
      let s' := s.erase rid
      let t := { t with refs := t.refs.set oid (o, s') }
      if s'.length = 0 then
        ({ t with refs := t.refs.erase oid, idMap := t.idMap.erase (idOf o) }, .ok ())
      else (t, .ok ())
    else (t, .error .keyError)

/-- Operations on the table. /repo/teleprox/server.py:193, 216, 364. -/
inductive RefOp where
  | get (o : Obj) (kwds : List String)
  | delete (oid rid : Nat)
  deriving DecidableEq, Repr

/-- Observable results. Results of /repo/teleprox/server.py:193-228, 364-370. -/
inductive RefOut where
  | proxy (oid rid : Nat)
  | deleted
  | raised (e : Exc)
  deriving DecidableEq, Repr

/-- One operation. /repo/teleprox/server.py:193-228, 364-370. -/
def Refs.step (idOf : Obj → Nat) (t : Refs) : RefOp → Refs × RefOut
  | .get o kwds =>
    match t.getProxy idOf o kwds with
    | (t', .ok (oid, rid)) => (t', .proxy oid rid)
    | (t', .error e) => (t', .raised e)
  | .delete oid rid =>
    match t.delete idOf oid rid with
    | (t', .ok ()) => (t', .deleted)
    | (t', .error e) => (t', .raised e)

end Verif
