import Verif.Model.Value
/-! # Specification: the texts that are read as base64 -/
namespace Verif

/-- The 64 letters of RFC 4648 in their order. -/
def b64Letters : List Char := "ABCDEFGHIJKLMNOPQRSTUVWXYZabcdefghijklmnopqrstuvwxyz0123456789+/".toList

/-- `c` is the letter for the number `v`. -/
def Sextet (c : Char) (v : Nat) : Prop := b64Letters[v]? = some c

/-- Text without letters: padding, spaces, anything else. -/
def NoLetter (s : List Char) : Prop := ∀ c ∈ s, c ∉ b64Letters

/-- The text `s` stands for the bytes: groups of four letters make three bytes each; the last group may be two letters with two paddings, or three
letters with one. Between the letters anything else may stand, except that padding enough to end a group does end it: what follows is not looked at. -/
inductive B64Text : List Char → Bytes → Prop
  | empty {s} : NoLetter s → B64Text s []
  | quad {j1 w j2 x j3 y j4 z r a b c d bs} : NoLetter j1 → Sextet w a → NoLetter j2 → Sextet x b →
      NoLetter j3 → j3.count '=' ≤ 1 → Sextet y c → NoLetter j4 → '=' ∉ j4 → Sextet z d → B64Text r bs →
      B64Text (j1 ++ w :: (j2 ++ x :: (j3 ++ y :: (j4 ++ z :: r))))
        (UInt8.ofNat (a * 4 + b / 16) :: UInt8.ofNat (b % 16 * 16 + c / 4) :: UInt8.ofNat (c % 4 * 64 + d) :: bs)
  | two {j1 w j2 x j3 r a b} : NoLetter j1 → Sextet w a → NoLetter j2 → Sextet x b → NoLetter j3 → 2 ≤ j3.count '=' →
      B64Text (j1 ++ w :: (j2 ++ x :: (j3 ++ r))) [UInt8.ofNat (a * 4 + b / 16)]
  | three {j1 w j2 x j3 y j4 r a b c} : NoLetter j1 → Sextet w a → NoLetter j2 → Sextet x b → NoLetter j3 → j3.count '=' ≤ 1 →
      Sextet y c → NoLetter j4 → '=' ∈ j4 →
      B64Text (j1 ++ w :: (j2 ++ x :: (j3 ++ y :: (j4 ++ r)))) [UInt8.ofNat (a * 4 + b / 16), UInt8.ofNat (b % 16 * 16 + c / 4)]

end Verif
