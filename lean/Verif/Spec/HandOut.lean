import Verif.Spec.Transport
import Verif.Spec.Refs
/-!
# Which references a message hands out

Specification vocabulary for C121: the objects of a value that are sent by proxy, in the order in which they
occur, and the value with something else in their places.
-/
namespace Verif

mutual
/-- The objects in the value that are sent by proxy (at any depth, once for every occurrence), in order. -/
def foreigns (tys : List Ty) : Val → List Val
  | .list l => foreignsL tys l
  | .tuple l => foreignsL tys l
  | .dict d => foreignsD tys d
  | .sub c v => if v.flattened then foreigns tys v else if (Val.sub c v).isinstance tys then [] else [.sub c v]
  | .obj o ts => if (Val.obj o ts).isinstance tys then [] else [.obj o ts]
  | _ => []
/-- See `foreigns`. -/
def foreignsL (tys : List Ty) : List Val → List Val
  | [] => []
  | v :: vs => foreigns tys v ++ foreignsL tys vs
/-- See `foreigns`. -/
def foreignsD (tys : List Ty) : List (Val × Val) → List Val
  | [] => []
  | (_, v) :: vs => foreigns tys v ++ foreignsD tys vs
end

/-- Take the first of the values for one place; the place keeps `v` if there is none left. -/
def takeOne (v : Val) : List Val → Val × List Val
  | [] => (v, [])
  | p :: ps => (p, ps)

mutual
/-- The value with the places of the objects sent by proxy filled with the given values in order, and the values
left over. -/
def fill (tys : List Ty) : Val → List Val → Val × List Val
  | .list l, ps => (.list (fillL tys l ps).1, (fillL tys l ps).2)
  | .tuple l, ps => (.tuple (fillL tys l ps).1, (fillL tys l ps).2)
  | .dict d, ps => (.dict (fillD tys d ps).1, (fillD tys d ps).2)
  | .sub c v, ps =>
    if v.flattened then (.sub c (fill tys v ps).1, (fill tys v ps).2)
    else if (Val.sub c v).isinstance tys then (.sub c v, ps) else takeOne (.sub c v) ps
  | .obj o ts, ps => if (Val.obj o ts).isinstance tys then (.obj o ts, ps) else takeOne (.obj o ts) ps
  | v, ps => (v, ps)
/-- See `fill`. -/
def fillL (tys : List Ty) : List Val → List Val → List Val × List Val
  | [], ps => ([], ps)
  | v :: vs, ps => ((fill tys v ps).1 :: (fillL tys vs (fill tys v ps).2).1, (fillL tys vs (fill tys v ps).2).2)
/-- See `fill`. -/
def fillD (tys : List Ty) : List (Val × Val) → List Val → List (Val × Val) × List Val
  | [], ps => ([], ps)
  | (k, v) :: vs, ps =>
    ((k, (fill tys v ps).1) :: (fillD tys vs (fill tys v ps).2).1, (fillD tys vs (fill tys v ps).2).2)
end

mutual
/-- The objects in the value that JSON sends by proxy (at any depth, once for every occurrence), in order. -/
def jforeigns (tys : List Ty) : Val → List Val
  | .list l => jforeignsL tys l
  | .tuple l => jforeignsL tys l
  | .dict d => jforeignsD tys d
  | .sub c v => if v.jflattened then jforeigns tys v else if (Val.sub c v).isinstance tys then [] else [.sub c v]
  | .obj o ts => if (Val.obj o ts).isinstance tys then [] else [.obj o ts]
  | _ => []
/-- See `jforeigns`. -/
def jforeignsL (tys : List Ty) : List Val → List Val
  | [] => []
  | v :: vs => jforeigns tys v ++ jforeignsL tys vs
/-- See `jforeigns`. -/
def jforeignsD (tys : List Ty) : List (Val × Val) → List Val
  | [] => []
  | (_, v) :: vs => jforeigns tys v ++ jforeignsD tys vs
end

mutual
/-- The value with the places of the objects that JSON sends by proxy filled with the given values in order, and the values
left over. -/
def jfill (tys : List Ty) : Val → List Val → Val × List Val
  | .list l, ps => (.list (jfillL tys l ps).1, (jfillL tys l ps).2)
  | .tuple l, ps => (.tuple (jfillL tys l ps).1, (jfillL tys l ps).2)
  | .dict d, ps => (.dict (jfillD tys d ps).1, (jfillD tys d ps).2)
  | .sub c v, ps =>
    if v.jflattened then (.sub c (jfill tys v ps).1, (jfill tys v ps).2)
    else if (Val.sub c v).isinstance tys then (.sub c v, ps) else takeOne (.sub c v) ps
  | .obj o ts, ps => if (Val.obj o ts).isinstance tys then (.obj o ts, ps) else takeOne (.obj o ts) ps
  | v, ps => (v, ps)
/-- See `jfill`. -/
def jfillL (tys : List Ty) : List Val → List Val → List Val × List Val
  | [], ps => ([], ps)
  | v :: vs, ps => ((jfill tys v ps).1 :: (jfillL tys vs (jfill tys v ps).2).1, (jfillL tys vs (jfill tys v ps).2).2)
/-- See `jfill`. -/
def jfillD (tys : List Ty) : List (Val × Val) → List Val → List (Val × Val) × List Val
  | [], ps => ([], ps)
  | (k, v) :: vs, ps =>
    ((k, (jfill tys v ps).1) :: (jfillD tys vs (jfill tys v ps).2).1, (jfillD tys vs (jfill tys v ps).2).2)
end

/-- The proxy for a handle, of the server at `addr`, for an object shown as `typeStr`. -/
def Handle.toProxy (addr typeStr : String) (x : Handle) : Val := .proxy ⟨addr, x.oid, x.rid, typeStr, []⟩

/-- The delete requests for these handles. -/
def deletes (xs : List Handle) : List RefOp := xs.map fun x => .delete x.oid x.rid

/-- Carry out operations on a table one after the other. -/
def Refs.runOps (idOf : Obj → Nat) : Refs → List RefOp → Refs
  | t, [] => t
  | t, op :: ops => Refs.runOps idOf (t.step idOf op).1 ops

end Verif
