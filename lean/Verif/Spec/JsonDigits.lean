import Verif.Spec.Formats
import Verif.Model.JsonDigits
/-! # Which values and trees contain integers with too many digits -/
namespace Verif

/-- The item is no integer with more than `lim` digits. -/
def shortItem (lim : Nat) : Wire → Bool
  | .int i => i.natAbs < 10 ^ lim
  | _ => true

mutual
/-- Somewhere in the value there is a dictionary with an integer of more than `lim` digits as key. -/
def Val.longKey (lim : Nat) : Val → Bool
  | .sub _ v => v.longKey lim
  | .list l => longKeyL lim l
  | .tuple l => longKeyL lim l
  | .dict d => longKeyD lim d
  | _ => false
/-- The same in the items of a list. -/
def longKeyL (lim : Nat) : List Val → Bool
  | [] => false
  | v :: vs => v.longKey lim || longKeyL lim vs
/-- The same in the entries of a dictionary. -/
def longKeyD (lim : Nat) : List (Val × Val) → Bool
  | [] => false
  | (k, v) :: r => (match k.core with | .int i => decide (10 ^ lim ≤ i.natAbs) | _ => false) || (v.longKey lim || longKeyD lim r)
end

end Verif
