import Verif.Model.Optional
/-!
# Values and processes without numpy

Specification vocabulary for C127.
-/
namespace Verif

/-- The classes that need numpy. -/
def Ty.needsNumpy : Ty → Bool
  | .npNumber | .npBool | .npDtype | .ndarray | .sharedNDArray => true
  | _ => false

mutual
/-- No numpy object occurs in the value. -/
def Val.npFree : Val → Bool
  | .list l => npFreeL l
  | .tuple l => npFreeL l
  | .dict d => npFreeD d
  | .ndarray _ | .npScalar _ | .dtype _ => false
  | .sub _ v => v.npFree
  | .obj _ ts => ts.all (fun ty => !ty.needsNumpy)
  | _ => true
/-- See `Val.npFree`. -/
def npFreeL : List Val → Bool
  | [] => true
  | v :: vs => v.npFree && npFreeL vs
/-- See `Val.npFree`. -/
def npFreeD : List (Val × Val) → Bool
  | [] => true
  | (k, v) :: vs => k.npFree && v.npFree && npFreeD vs
end

/-- `L0` are the libraries of a process without numpy, `L` those of one that has numpy and is otherwise the same:
pickles that need numpy cannot be read (`ImportError`), all others are the same. -/
structure Bare (L L0 : Lib) : Prop where
  reads : ∀ b v, L.pickleLoads b = .ok v → L0.pickleLoads b = if v.npFree then .ok v else .error .importError
  only : ∀ b v, L0.pickleLoads b = .ok v → L.pickleLoads b = .ok v
  dumps : ∀ v, v.npFree = true → L0.pickleDumps v = L.pickleDumps v
  floats : L0.floatRepr = L.floatRepr
  longs : L0.ldOfFloat = L.ldOfFloat
  years : L0.padYear = L.padYear

/-- The same receiver without numpy. -/
structure BareRecv (R R0 : RecvEnv) : Prop where
  lib : Bare R.lib R0.lib
  server : R0.server = R.server

/-- The objects a process without numpy has itself are free of numpy. -/
def OwnFree (R : RecvEnv) : Prop := ∀ addr unwrap p v, R.server = some (addr, unwrap) → unwrap p = .ok v → v.npFree = true

/-- The same sender without numpy: its serialize types lack those of numpy, which it does not know. -/
structure BareSend (E E0 : SendEnv) : Prop where
  lib : Bare E.lib E0.lib
  server : E0.server = E.server
  idOf : E0.idOf = E.idOf
  ident : E0.ident = E.ident
  typeStr : E0.typeStr = E.typeStr
  less : ∀ ty ∈ E0.tys, ty ∈ E.tys
  more : ∀ ty ∈ E.tys, ty.needsNumpy = false → ty ∈ E0.tys

/-- The process without numpy either gets the same value or an `ImportError`, and never another value. -/
def SameOrImport {α : Type} (x x0 : Except Exc α) : Prop :=
  (∀ v, x = .ok v → x0 = .ok v ∨ x0 = .error .importError) ∧ ∀ v, x0 = .ok v → x = .ok v

end Verif
