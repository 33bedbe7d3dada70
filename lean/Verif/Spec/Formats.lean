import Verif.Model.Server
/-!
# What the message formats can carry

Which message trees msgpack and JSON have bytes for. Independent of how these are written and read (`Verif.Model.Formats`).
-/
namespace Verif

mutual
/-- Every item of a tree satisfies `P`. -/
def Wire.all (P : Wire → Bool) : Wire → Bool
  | .arr l => P (.arr l) && Wire.allL P l
  | .map m => P (.map m) && Wire.allM P m
  | w => P w
def Wire.allL (P : Wire → Bool) : List Wire → Bool
  | [] => true
  | w :: ws => w.all P && Wire.allL P ws
def Wire.allM (P : Wire → Bool) : List (Wire × Wire) → Bool
  | [] => true
  | (k, w) :: r => k.all P && (w.all P && Wire.allM P r)
end

mutual
/-- How deeply arrays and maps are nested. -/
def Wire.nesting : Wire → Nat
  | .arr l => Wire.nestingL l + 1
  | .map m => Wire.nestingM m + 1
  | _ => 0
def Wire.nestingL : List Wire → Nat
  | [] => 0
  | w :: ws => max w.nesting (Wire.nestingL ws)
def Wire.nestingM : List (Wire × Wire) → Nat
  | [] => 0
  | (k, w) :: r => max k.nesting (max w.nesting (Wire.nestingM r))
end

/-- The bits of a 64-bit float that is no number. -/
def isNan (f : Nat) : Bool := f / 2 ^ 52 % 2048 = 2047 && f % 2 ^ 52 ≠ 0

/-- 10^4300: Python refuses to convert larger integers to or from text. -/
@[irreducible] def maxIntText : Nat := 10 ^ 4300

/-- The sizes are within the limits of the format. For msgpack lengths have 32 bits. In JSON integers have at most 4300 digits and there is only one NaN. -/
def Ser.smallItem : Ser → Wire → Bool
  | .msgpack, .float f => f < 2 ^ 64
  | .msgpack, .str s => s.utf8ByteSize < 2 ^ 32
  | .msgpack, .bin b => b.length < 2 ^ 32
  | .msgpack, .arr l => l.length < 2 ^ 32
  | .msgpack, .map m => m.length < 2 ^ 32
  | .json, .int i => i.natAbs < maxIntText
  | .json, .float f => f < 2 ^ 64 && (!isNan f || f = 0x7ff8000000000000)
  | _, _ => true

/-- The item is of a kind the format has: msgpack has integers of 64 bits (signed or not); JSON has no bytes, and only texts as keys. -/
def Ser.hasItem : Ser → Wire → Bool
  | .msgpack, .int i => -2 ^ 63 ≤ i && i < 2 ^ 64
  | .json, .bin _ => false
  | .json, .map m => m.all fun kv => match kv.1 with | .str _ => true | _ => false
  | _, _ => true

/-- A tree within the sizes of the format. -/
def Ser.Small (ser : Ser) (w : Wire) : Prop := w.all ser.smallItem = true

/-- How deeply a reader follows: 1024 containers (msgpack), 1000 levels of recursion (Python). -/
def Ser.maxNesting : Ser → Nat
  | .msgpack => 1024
  | .json => 1000

/-- A tree the format can carry. -/
def Ser.Writable (ser : Ser) (w : Wire) : Prop := ser.Small w ∧ w.all ser.hasItem = true ∧ w.nesting ≤ ser.maxNesting

end Verif
