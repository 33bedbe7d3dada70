import Verif.Model.Exec
/-! # Which code a message may run -/
namespace Verif

/-- A pickle that `pickle.dumps` of these libraries made. -/
def Ran.ownPickle (L : Lib) (r : Ran) : Prop := ∃ u b, L.pickleDumps u = .ok b ∧ r = .pickle b

/-- The printed name of a structured dtype that numpy has. -/
def Ran.dtypeName (L : Lib) (r : Ran) : Prop := ∃ d, L.known d = true ∧ startsWithC '[' d.name = true ∧ r = .exec d.name

/-- A text of a list. -/
def Wire.isText (bad : List String) : Wire → Bool
  | .str s => bad.contains s
  | _ => false

mutual
/-- No value of a map, at any depth, is one of the given texts. -/
def Wire.quiet (bad : List String) : Wire → Bool
  | .arr l => Wire.quietL bad l
  | .map m => Wire.quietM bad m
  | _ => true
/-- See `Wire.quiet`. -/
def Wire.quietL (bad : List String) : List Wire → Bool
  | [] => true
  | w :: ws => w.quiet bad && Wire.quietL bad ws
/-- See `Wire.quiet`. -/
def Wire.quietM (bad : List String) : List (Wire × Wire) → Bool
  | [] => true
  | (k, w) :: r => k.quiet bad && w.quiet bad && !w.isText bad && Wire.quietM bad r
end

/-- A value that is none of the given texts. -/
def Val.notText (bad : List String) (v : Val) : Prop := ∀ s ∈ bad, v.text? ≠ some s

/-- No object the receiver serves is one of the given texts. -/
def RecvEnv.servesNone (R : RecvEnv) (bad : List String) : Prop :=
  ∀ a f p v, R.server = some (a, f) → f p = .ok v → v.notText bad

end Verif
