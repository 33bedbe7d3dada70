import Verif.Model.Digits
/-!
# Text encodings used on the wire: date strings and base64

Library behaviour (`strftime`, `strptime`, `base64`), used by /repo/teleprox/serializer.py:120-125, 177-180,
300, 305, 317 and 320.
-/
namespace Verif

/-- A decimal digit character. Part of /repo/teleprox/serializer.py:122, 125. -/
def digit (n : Nat) : Char := Char.ofNat (48 + n % 10)

/-- `n` in decimal, zero-padded (and truncated) to `w` digits. Part of /repo/teleprox/serializer.py:122, 125. -/
def padDec : Nat → Nat → List Char
  | 0, _ => []
  | w + 1, n => padDec w (n / 10) ++ [digit n]

/-- `n` in decimal without padding. Part of /repo/teleprox/serializer.py:122, 125. -/
def natDec (n : Nat) : List Char :=
  if n < 10 then [digit n] else if n < 100 then padDec 2 n else if n < 1000 then padDec 3 n
  else if n < 10000 then padDec 4 n else padDec 5 n

/-- `%Y`: four digits if the platform pads, else unpadded (glibc before Python padded it itself).
Part of /repo/teleprox/serializer.py:122, 125. -/
def fmtYear (padYear : Bool) (y : Nat) : List Char := if padYear then padDec 4 y else natDec y

/-- `strftime('%Y-%m-%d')`. /repo/teleprox/serializer.py:125. -/
def fmtDate (padYear : Bool) (y m d : Nat) : List Char :=
  fmtYear padYear y ++ '-' :: padDec 2 m ++ '-' :: padDec 2 d

/-- `strftime('%Y-%m-%dT%H:%M:%S.%f')`; the timezone and the fold are not part of the format. /repo/teleprox/serializer.py:122. -/
def fmtDateTime (padYear : Bool) (t : DateTime) : List Char :=
  fmtDate padYear t.year t.month t.day ++ 'T' :: padDec 2 t.hour ++ ':' :: padDec 2 t.minute ++
    ':' :: padDec 2 t.second ++ '.' :: padDec 6 t.micro

/-- Days of a month (Gregorian). Part of /repo/teleprox/serializer.py:178, 180. -/
def daysInMonth (y m : Nat) : Nat :=
  if m = 2 then (if (y % 4 = 0 ∧ y % 100 ≠ 0) ∨ y % 400 = 0 then 29 else 28)
  else if m = 4 ∨ m = 6 ∨ m = 9 ∨ m = 11 then 30 else 31

/-- The range check of `datetime.date(...)`. Part of /repo/teleprox/serializer.py:180. -/
def Date.valid (d : Date) : Bool :=
  1 ≤ d.year && d.year ≤ 9999 && 1 ≤ d.month && d.month ≤ 12 && 1 ≤ d.day && d.day ≤ daysInMonth d.year d.month

/-- The range check of `datetime.datetime(...)`. Part of /repo/teleprox/serializer.py:178. -/
def DateTime.valid (t : DateTime) : Bool :=
  Date.valid ⟨t.year, t.month, t.day⟩ && t.hour < 24 && t.minute < 60 && t.second < 60 && t.micro < 1000000

/-! `strptime` turns the format into a regular expression (case-insensitive, not anchored at the end), converts the groups
with `int` and refuses a text that goes on after the match (`_strptime.py` of the standard library). -/

/-- One alternative of a group: a class of characters for each position. Part of /repo/teleprox/serializer.py:178, 180. -/
abbrev Alt := List (Char → Bool)

/-- The class `[a-b]`. Part of /repo/teleprox/serializer.py:178, 180. -/
def chars (a b : Nat) (c : Char) : Bool := a ≤ c.toNat && c.toNat ≤ b

/-- `[i-j]` for digits. Part of /repo/teleprox/serializer.py:178, 180. -/
def digs (i j : Nat) : Char → Bool := chars (48 + i) (48 + j)

/-- An alternative at the start of a text: what it matches and the rest. Part of /repo/teleprox/serializer.py:178, 180. -/
def matchAlt : Alt → List Char → Option (List Char × List Char)
  | [], s => some ([], s)
  | _ :: _, [] => none
  | p :: ps, c :: s =>
    if p c then
      match matchAlt ps s with
      | some (a, r) => some (c :: a, r)
      | none => none
    else none

/-- All matches of a group at the start of a text, in the order they are tried. Part of /repo/teleprox/serializer.py:178, 180. -/
def group (alts : List Alt) (s : List Char) : List (List Char × List Char) := alts.filterMap (matchAlt · s)

/-- A literal character of the format. Part of /repo/teleprox/serializer.py:178, 180. -/
def lit (p : Char → Bool) : List Char → List (List Char)
  | c :: s => if p c then [s] else []
  | [] => []

/-- `%Y`: `\d\d\d\d`. Part of /repo/teleprox/serializer.py:178, 180. -/
def yearAlts : List Alt := [[isUniDigit, isUniDigit, isUniDigit, isUniDigit]]
/-- `%m`: `1[0-2]|0[1-9]|[1-9]`. Part of /repo/teleprox/serializer.py:178, 180. -/
def monthAlts : List Alt := [[digs 1 1, digs 0 2], [digs 0 0, digs 1 9], [digs 1 9]]
/-- `%d`: `3[0-1]|[1-2]\d|0[1-9]|[1-9]| [1-9]`. Part of /repo/teleprox/serializer.py:178, 180. -/
def dayAlts : List Alt :=
  [[digs 3 3, digs 0 1], [digs 1 2, isUniDigit], [digs 0 0, digs 1 9], [digs 1 9], [chars 32 32, digs 1 9]]
/-- `%H`: `2[0-3]|[0-1]\d|\d`. Part of /repo/teleprox/serializer.py:178. -/
def hourAlts : List Alt := [[digs 2 2, digs 0 3], [digs 0 1, isUniDigit], [isUniDigit]]
/-- `%M`: `[0-5]\d|\d`. Part of /repo/teleprox/serializer.py:178. -/
def minuteAlts : List Alt := [[digs 0 5, isUniDigit], [isUniDigit]]
/-- `%S`: `6[0-1]|[0-5]\d|\d`. Part of /repo/teleprox/serializer.py:178. -/
def secondAlts : List Alt := [[digs 6 6, digs 0 1], [digs 0 5, isUniDigit], [isUniDigit]]
/-- `%f`: `[0-9]{1,6}`, the longest first. Part of /repo/teleprox/serializer.py:178. -/
def fractionAlts : List Alt := [6, 5, 4, 3, 2, 1].map fun n => List.replicate n (digs 0 9)

/-- `int` of a group: digits, after a space for `%d`. Part of /repo/teleprox/serializer.py:178, 180. -/
def groupInt (s : List Char) : Nat := s.foldl (fun n c => 10 * n + (uniDigit c).getD 0) 0

/-- The matches of `%Y-%m-%d` in the order they are tried. Part of /repo/teleprox/serializer.py:178, 180. -/
def scanDate (s : List Char) : List (Date × List Char) :=
  (group yearAlts s).flatMap fun (y, s) =>
  (lit (· = '-') s).flatMap fun s =>
  (group monthAlts s).flatMap fun (m, s) =>
  (lit (· = '-') s).flatMap fun s =>
  (group dayAlts s).map fun (d, s) =>
  (⟨groupInt y, groupInt m, groupInt d⟩, s)

/-- `datetime.strptime(s, '%Y-%m-%d').date()`. /repo/teleprox/serializer.py:180. -/
def parseDate (s : List Char) : Except Exc Date :=
  match (scanDate s).head? with
  | some (d, []) => if d.valid then .ok d else .error .valueError
  | _ => .error .valueError

/-- The matches of `%Y-%m-%dT%H:%M:%S.%f` in the order they are tried; the fraction is filled up with zeros on the right.
Part of /repo/teleprox/serializer.py:178. -/
def scanDateTime (s : List Char) : List (DateTime × List Char) :=
  (scanDate s).flatMap fun (d, s) =>
  (lit (fun c => c = 'T' || c = 't') s).flatMap fun s =>
  (group hourAlts s).flatMap fun (h, s) =>
  (lit (· = ':') s).flatMap fun s =>
  (group minuteAlts s).flatMap fun (mi, s) =>
  (lit (· = ':') s).flatMap fun s =>
  (group secondAlts s).flatMap fun (se, s) =>
  (lit (· = '.') s).flatMap fun s =>
  (group fractionAlts s).map fun (f, s) =>
  (⟨d.year, d.month, d.day, groupInt h, groupInt mi, groupInt se, groupInt f * 10 ^ (6 - f.length), none, false⟩, s)

/-- `datetime.strptime(s, '%Y-%m-%dT%H:%M:%S.%f')`. /repo/teleprox/serializer.py:178. -/
def parseDateTime (s : List Char) : Except Exc DateTime :=
  match (scanDateTime s).head? with
  | some (t, []) => if t.valid then .ok t else .error .valueError
  | _ => .error .valueError

/-! ## base64 -/

/-- The base64 alphabet. /repo/teleprox/serializer.py:300, 305. -/
def b64Char (n : Nat) : Char :=
  if n < 26 then Char.ofNat (65 + n)
  else if n < 52 then Char.ofNat (97 + (n - 26))
  else if n < 62 then Char.ofNat (48 + (n - 52))
  else if n = 62 then '+' else '/'

/-- Value of a character of the alphabet. /repo/teleprox/serializer.py:317, 320. -/
def b64Val (c : Char) : Option Nat :=
  let n := c.toNat
  if 65 ≤ n ∧ n ≤ 90 then some (n - 65)
  else if 97 ≤ n ∧ n ≤ 122 then some (n - 97 + 26)
  else if 48 ≤ n ∧ n ≤ 57 then some (n - 48 + 52)
  else if c = '+' then some 62
  else if c = '/' then some 63
  else none

/-- `base64.b64encode(data).decode()`. /repo/teleprox/serializer.py:300, 305. -/
def b64encode : Bytes → List Char
  | [] => []
  | [a] =>
    let n := a.toNat * 16
    [b64Char (n / 64), b64Char (n % 64), '=', '=']
  | [a, b] =>
    let n := (a.toNat * 256 + b.toNat) * 4
    [b64Char (n / 4096), b64Char (n / 64 % 64), b64Char (n % 64), '=']
  | a :: b :: c :: r =>
    let n := (a.toNat * 256 + b.toNat) * 256 + c.toNat
    b64Char (n / 262144) :: b64Char (n / 4096 % 64) :: b64Char (n / 64 % 64) :: b64Char (n % 64) :: b64encode r

/-- The loop of `binascii.a2b_base64`, which `base64.b64decode` calls: `q` characters of the current group of four have been read, `left` are the bits of
them that are in no byte yet, and `pads` the padding characters since the last one. Characters that are neither in the alphabet nor padding are skipped;
padding that completes a group ends the reading, whatever follows. /repo/teleprox/serializer.py:317, 320. -/
def b64scan (q left pads : Nat) : List Char → Except Exc Bytes
  | [] => if q = 0 then .ok [] else .error (.other "binascii.Error")
  | c :: r =>
    if c = '=' then
      if 2 ≤ q then
        if 4 ≤ q + (pads + 1) then .ok [] else b64scan q left (pads + 1) r
      else b64scan q left pads r
    else
      match b64Val c with
      | none => b64scan q left pads r
      | some v =>
        match q with
        | 0 => b64scan 1 v 0 r
        | 1 => (b64scan 2 (v % 16) 0 r).map (UInt8.ofNat (left * 4 + v / 16) :: ·)
        | 2 => (b64scan 3 (v % 4) 0 r).map (UInt8.ofNat (left * 16 + v / 4) :: ·)
        | _ => (b64scan 0 0 0 r).map (UInt8.ofNat (left * 64 + v) :: ·)

/-- `base64.b64decode(text)`: text that is not ASCII is refused with ValueError. /repo/teleprox/serializer.py:317, 320. -/
def b64decode (s : List Char) : Except Exc Bytes :=
  if s.all (·.toNat < 128) then b64scan 0 0 0 s else .error .valueError

/-- `base64.b64decode(data)` of bytes. /repo/teleprox/serializer.py:317, 320. -/
def b64decodeBytes (b : Bytes) : Except Exc Bytes := b64scan 0 0 0 (b.map fun x => Char.ofNat x.toNat)

end Verif
