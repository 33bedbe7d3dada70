import Verif.Model.Value
/-! # Decimal digits as Python's `re` and `int` see them -/
namespace Verif

/-- The code points of the decimal digits zero (Unicode category Nd, Unicode 14.0.0); the digits 1 to 9 of each script follow.
For `\d` in /repo/teleprox/client.py:185 and in the patterns of `strptime`, /repo/teleprox/serializer.py:178, 180. -/
def unicodeZeros : List Nat := [
  48, 1632, 1776, 1984, 2406, 2534, 2662, 2790, 2918, 3046, 3174, 3302, 3430, 3558, 3664, 3792, 3872, 4160, 4240,
  6112, 6160, 6470, 6608, 6784, 6800, 6992, 7088, 7232, 7248, 42528, 43216, 43264, 43472, 43504, 43600, 44016,
  65296, 66720, 68912, 69734, 69872, 69942, 70096, 70384, 70736, 70864, 71248, 71360, 71472, 71904, 72016, 72784,
  73040, 73120, 92768, 92864, 93008, 120782, 120792, 120802, 120812, 120822, 123200, 123632, 125264, 130032]

/-- The value of a character that matches `\d` (and that `int` accepts). Used at /repo/teleprox/client.py:185, 190,
/repo/teleprox/serializer.py:178, 180. -/
def uniDigit (c : Char) : Option Nat :=
  match unicodeZeros.find? fun z => z ≤ c.toNat && c.toNat < z + 10 with
  | some z => some (c.toNat - z)
  | none => none

/-- `\d` on `str`. Used at /repo/teleprox/client.py:185, /repo/teleprox/serializer.py:178, 180. -/
def isUniDigit (c : Char) : Bool := (uniDigit c).isSome

end Verif
