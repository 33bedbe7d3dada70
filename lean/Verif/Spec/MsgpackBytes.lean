import Verif.Model.Server
import Verif.Spec.Formats
/-!
# The bytes of msgpack

Which tree a sequence of bytes stands for, from the table of formats of the msgpack specification (without extension types), with the limit of the library (1024
containers inside each other). Independent of how bytes are read (`Verif.Model.Formats`). Widening a float of 32 bits is a parameter.
-/
namespace Verif

/-- The number in bytes, most significant first. -/
def mpVal : Bytes → Nat
  | [] => 0
  | x :: b => x.toNat * 256 ^ b.length + mpVal b

/-- A tag, how many bytes follow it. -/
abbrev MpTags := List (UInt8 × Nat)

/-- `n` in as many bytes as the tag says. -/
def MpTagged (tags : MpTags) (h : Bytes) (n : Nat) : Prop := ∃ t k b, (t, k) ∈ tags ∧ b.length = k ∧ h = t :: b ∧ n = mpVal b

/-- A length: in the tag itself, if it is small, or in the bytes after the tag. -/
def MpLen (base count : Nat) (tags : MpTags) (h : Bytes) (n : Nat) : Prop := (n < count ∧ h = [UInt8.ofNat (base + n)]) ∨ MpTagged tags h n

def mpUints : MpTags := [(0xcc, 1), (0xcd, 2), (0xce, 4), (0xcf, 8)]
def mpSints : MpTags := [(0xd0, 1), (0xd1, 2), (0xd2, 4), (0xd3, 8)]
def MpStrLen : Bytes → Nat → Prop := MpLen 0xa0 32 [(0xd9, 1), (0xda, 2), (0xdb, 4)]
def MpBinLen : Bytes → Nat → Prop := MpLen 0 0 [(0xc4, 1), (0xc5, 2), (0xc6, 4)]
def MpArrLen : Bytes → Nat → Prop := MpLen 0x90 16 [(0xdc, 2), (0xdd, 4)]
def MpMapLen : Bytes → Nat → Prop := MpLen 0x80 16 [(0xde, 2), (0xdf, 4)]

/-- Items other than arrays and maps. Signed integers are in two's complement. -/
inductive MpScalar (f32 : Nat → Nat) : Bytes → Wire → Prop
  | nil : MpScalar f32 [0xc0] .nil
  | false : MpScalar f32 [0xc2] (.bool false)
  | true : MpScalar f32 [0xc3] (.bool true)
  | small {n : Nat} : n < 128 → MpScalar f32 [UInt8.ofNat n] (.int n)
  | negative {n : Nat} : 1 ≤ n → n ≤ 32 → MpScalar f32 [UInt8.ofNat (256 - n)] (.int (-(n : Int)))
  | uint {h : Bytes} {n : Nat} : MpTagged mpUints h n → MpScalar f32 h (.int n)
  | sint {t : UInt8} {b : Bytes} {i : Int} : (t, b.length) ∈ mpSints → -(2 : Int) ^ (8 * b.length - 1) ≤ i → i < (2 : Int) ^ (8 * b.length - 1) →
      i % (256 : Int) ^ b.length = (mpVal b : Int) → MpScalar f32 (t :: b) (.int i)
  | float {b : Bytes} : b.length = 8 → MpScalar f32 (0xcb :: b) (.float (mpVal b))
  | short {b : Bytes} : b.length = 4 → MpScalar f32 (0xca :: b) (.float (f32 (mpVal b)))
  | str {h : Bytes} {s : String} : MpStrLen h s.toUTF8.size → MpScalar f32 (h ++ s.toUTF8.data.toList) (.str s)
  | bin {h b : Bytes} : MpBinLen h b.length → MpScalar f32 (h ++ b) (.bin b)

/-- Items one after the other. -/
inductive MpSeq {α : Type} (V : Bytes → α → Prop) : Bytes → List α → Prop
  | nil : MpSeq V [] []
  | cons {t u : Bytes} {a : α} {l : List α} : V t a → MpSeq V u l → MpSeq V (t ++ u) (a :: l)

/-- Key and value. -/
def MpPair (V : Bytes → Wire → Prop) (t : Bytes) (kv : Wire × Wire) : Prop := ∃ a b, t = a ++ b ∧ V a kv.1 ∧ V b kv.2

/-- Items with at most so many arrays and maps inside each other. -/
def MpBytes (f32 : Nat → Nat) : Nat → Bytes → Wire → Prop
  | 0, t, w => MpScalar f32 t w
  | d + 1, t, w => MpScalar f32 t w ∨
      (∃ h u l, MpArrLen h l.length ∧ MpSeq (MpBytes f32 d) u l ∧ t = h ++ u ∧ w = .arr l) ∨
      (∃ h u l, MpMapLen h l.length ∧ MpSeq (MpPair (MpBytes f32 d)) u l ∧ t = h ++ u ∧ w = .map l)

/-- No floats anywhere (these are always written with 64 bits, although some would fit in 32). -/
def Wire.noFloat (w : Wire) : Bool := w.all fun w => match w with | .float _ => false | _ => true

end Verif
