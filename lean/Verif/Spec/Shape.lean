/-! # Specification: shapes with a dimension left open -/
namespace Verif

/-- `full` is the shape with its dimension that is left open, if any, filled in. -/
def Fills (shape : List Int) (full : List Nat) : Prop :=
  shape.length = full.length ∧ (∀ (i : Nat) (k : Int), shape[i]? = some k → 0 ≤ k → full[i]? = some k.toNat) ∧
  (shape.filter (· < 0)).length ≤ 1 ∧ ((shape.filter (· < 0)).length = 1 → 0 ∉ shape)

end Verif
