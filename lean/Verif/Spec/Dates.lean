import Verif.Model.Value
/-! # Texts of dates and times -/
namespace Verif

/-- A decimal number of ASCII digits, with leading zeros or without. -/
def Decimal (s : List Char) (n : Nat) : Prop :=
  s ≠ [] ∧ (∀ c ∈ s, '0'.toNat ≤ c.toNat ∧ c.toNat ≤ '9'.toNat) ∧ s.foldl (fun n c => 10 * n + (c.toNat - '0'.toNat)) 0 = n

/-- A number of one or two digits. -/
def Short (s : List Char) (n : Nat) : Prop := s.length ≤ 2 ∧ Decimal s n

/-- A text like `2024-2-29`: a year of four digits, a month of one or two, and a day of one or two, where a space may stand
for a leading zero. -/
def DateText (s : List Char) (y m d : Nat) : Prop :=
  ∃ Y M D, s = Y ++ '-' :: (M ++ '-' :: D) ∧ Y.length = 4 ∧ Decimal Y y ∧ Short M m ∧
    (Short D d ∨ ∃ c, D = [' ', c] ∧ Decimal [c] d)

/-- A text like `2024-02-29T23:5:09.25`: a date, the letter T, hours, minutes and seconds of one or two digits, and a decimal
fraction of one to six digits. -/
def DateTimeText (s : List Char) (y m d h mi se us : Nat) : Prop :=
  ∃ D T H M S F f, s = D ++ T :: (H ++ ':' :: (M ++ ':' :: (S ++ '.' :: F))) ∧ DateText D y m d ∧ (T = 'T' ∨ T = 't') ∧
    Short H h ∧ Short M mi ∧ Short S se ∧ F.length ≤ 6 ∧ Decimal F f ∧ us = f * 10 ^ (6 - F.length)

/-- A text of ASCII characters. -/
def AsciiText (s : List Char) : Prop := ∀ c ∈ s, c.toNat < 128

end Verif
