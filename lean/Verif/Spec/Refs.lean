import Verif.Model.Refs
/-!
# Specification of proxy references, in terms of the observable history only
-/
namespace Verif

/-- A proxy as its holder sees it: object id, reference id, and the object it was handed out for. -/
structure Handle where
  oid : Nat
  rid : Nat
  obj : Obj
  deriving DecidableEq, Repr

/-- A history: operations with the results the users saw, oldest first. -/
abbrev RefHistory := List (RefOp × RefOut)

/-- The proxies handed out by one history entry (none if the call raised). -/
def handedBy : RefOp × RefOut → List Handle
  | (.get o _, .proxy oid rid) => [⟨oid, rid, o⟩]
  | _ => []

/-- All proxies ever handed out. -/
def handedOut (h : RefHistory) : List Handle := h.flatMap handedBy

/-- The proxies handed out and not successfully deleted since. -/
def outstanding (h : RefHistory) : List Handle :=
  h.foldl (fun acc e =>
    match e with
    | (.get o _, .proxy oid rid) => acc ++ [⟨oid, rid, o⟩]
    | (.delete oid rid, .deleted) => acc.filter (fun x => ¬ (x.oid = oid ∧ x.rid = rid))
    | _ => acc) []

/-- Python's guarantee about `id()`: the object passed to `get_proxy` is alive, and so is every object with
an outstanding proxy (the server holds it); objects alive together have different `id()`. -/
def IdsDistinct (idOf : Obj → Nat) (h : RefHistory) : RefOp → Prop
  | .get o _ => ∀ x ∈ outstanding h, idOf x.obj = idOf o → x.obj = o
  | .delete .. => True

instance (idOf h op) : Decidable (IdsDistinct idOf h op) := by
  cases op <;> unfold IdsDistinct <;> infer_instance

/-- `Reach idOf h t`: starting from a new server, the history `h` may be observed and leads to table `t`. -/
inductive Reach (idOf : Obj → Nat) : RefHistory → Refs → Prop where
  | init : Reach idOf [] Refs.init
  | step {h t} (op : RefOp) : Reach idOf h t → IdsDistinct idOf h op →
      Reach idOf (h ++ [(op, (t.step idOf op).2)]) (t.step idOf op).1

end Verif
