import Verif.Model.Server
import Verif.Model.Client
import Verif.Model.Process
import Verif.Model.Util
/-!
# The bytes of messages: UTF-8, decimal numbers, msgpack, JSON text

Elsewhere in the model the libraries that turn message trees (`Wire`) into bytes are a parameter (`Codec`, `Heap.parse`). Here they are
written out as msgpack-python and Python's `json` work, so that the assumption that a server reads what clients write can be proved.
-/
namespace Verif

/-- What is left abstract: widening a 32-bit float, `repr` of a finite float and `float` of a number text. Floats are 64-bit patterns.
Used by the libraries called at /repo/teleprox/serializer.py:244, 259, 286, 291. -/
structure FmtLib where
  f32 : Nat → Nat
  floatText : Nat → List Char
  floatOf : List Char → Nat

/-- `repr` of a float that is neither infinite nor NaN: a number of JSON with a fraction or an exponent. Written at /repo/teleprox/serializer.py:286. -/
def FloatForm (s : List Char) : Prop :=
  let digit := fun c : Char => 48 ≤ c.toNat ∧ c.toNat ≤ 57
  ∃ neg whole frac exp : List Char, s = neg ++ (whole ++ (frac ++ exp)) ∧ (neg = [] ∨ neg = ['-']) ∧
    (whole = ['0'] ∨ ∃ c d, whole = c :: d ∧ c ≠ '0' ∧ digit c ∧ ∀ x ∈ d, digit x) ∧
    (frac = [] ∨ ∃ d, frac = '.' :: d ∧ d ≠ [] ∧ ∀ x ∈ d, digit x) ∧
    (exp = [] ∨ ∃ sg d, exp = 'e' :: sg :: d ∧ (sg = '+' ∨ sg = '-') ∧ d ≠ [] ∧ ∀ x ∈ d, digit x) ∧ (frac ≠ [] ∨ exp ≠ [])

/-- What is assumed of floats where a theorem needs it: `repr` has this form, and `float` reads it back. About /repo/teleprox/serializer.py:286, 291. -/
structure FmtLib.Laws (F : FmtLib) : Prop where
  form : ∀ f < 2 ^ 64, f / 2 ^ 52 % 2 ^ 11 ≠ 2 ^ 11 - 1 → FloatForm (F.floatText f)
  exact : ∀ f < 2 ^ 64, f / 2 ^ 52 % 2 ^ 11 ≠ 2 ^ 11 - 1 → F.floatOf (F.floatText f) = f

/-! ## Text and numbers -/

/-- `s.encode()`; /repo/teleprox/client.py:299, 301 and /repo/teleprox/serializer.py:286. -/
def utf8Bytes (s : String) : Bytes := s.toByteArray.data.toList

/-- `b.decode()`, `none` for `UnicodeDecodeError`; /repo/teleprox/server.py:244-246 and /repo/teleprox/serializer.py:291. -/
def utf8Text (b : Bytes) : Option String := String.fromUTF8? b.toByteArray

/-- `str(i).encode()`; /repo/teleprox/client.py:301. -/
def numBytes (i : Int) : Bytes := (intText i).map fun c => UInt8.ofNat c.toNat

/-- `int(b)` for bytes, `none` for `ValueError`; /repo/teleprox/server.py:243. Only ASCII digits and the six white space characters of C count.
Simplification: no limit on the number of digits (Python's is 4300). -/
def bytesInt (b : Bytes) : Option Int :=
  if b.all (fun x => x < 128 && !(28 ≤ x && x ≤ 31)) then
    let num (r : List Char) : Option Int := (intDigits r).map fun d => ((Nat.ofDigitChars 10 d 0 : Nat) : Int)
    match pyStrip (b.map fun x => Char.ofNat x.toNat) with
    | '-' :: r => (num r).map fun i => -i
    | '+' :: r => num r
    | r => num r
  else none

/-! ## msgpack -/

/-- `n` in `k` bytes, most significant first. Part of `msgpack.dumps`, /repo/teleprox/serializer.py:244. -/
def bigEndian : Nat → Nat → Bytes
  | 0, _ => []
  | k + 1, n => UInt8.ofNat (n / 256 ^ k) :: bigEndian k n

/-- The number written in bytes, most significant first. Part of `msgpack.loads`, /repo/teleprox/serializer.py:259. -/
def ofBigEndian (b : Bytes) : Nat := b.foldl (fun n x => n * 256 + x.toNat) 0

/-- An integer in the shortest form; the packer's caller has made sure that it fits in 64 bits. Part of `msgpack.dumps`,
/repo/teleprox/serializer.py:244. -/
def mpInt (i : Int) : Bytes :=
  if i < -32 then
    if i < -2 ^ 31 then 0xd3 :: bigEndian 8 (i + 2 ^ 64).toNat
    else if i < -2 ^ 15 then 0xd2 :: bigEndian 4 (i + 2 ^ 32).toNat
    else if i < -2 ^ 7 then 0xd1 :: bigEndian 2 (i + 2 ^ 16).toNat
    else 0xd0 :: bigEndian 1 (i + 2 ^ 8).toNat
  else if i < 0 then [UInt8.ofNat (i + 256).toNat]
  else if i < 2 ^ 7 then [UInt8.ofNat i.toNat]
  else if i < 2 ^ 8 then 0xcc :: bigEndian 1 i.toNat
  else if i < 2 ^ 16 then 0xcd :: bigEndian 2 i.toNat
  else if i < 2 ^ 32 then 0xce :: bigEndian 4 i.toNat
  else 0xcf :: bigEndian 8 i.toNat

/-- The header of a str of `n` bytes (`use_bin_type=True`). Part of `msgpack.dumps`, /repo/teleprox/serializer.py:244. -/
def mpStrHead (n : Nat) : Bytes :=
  if n < 32 then [UInt8.ofNat (0xa0 + n)]
  else if n < 2 ^ 8 then 0xd9 :: bigEndian 1 n
  else if n < 2 ^ 16 then 0xda :: bigEndian 2 n
  else 0xdb :: bigEndian 4 n

/-- The header of bytes of length `n`. Part of `msgpack.dumps`, /repo/teleprox/serializer.py:244. -/
def mpBinHead (n : Nat) : Bytes :=
  if n < 2 ^ 8 then 0xc4 :: bigEndian 1 n
  else if n < 2 ^ 16 then 0xc5 :: bigEndian 2 n
  else 0xc6 :: bigEndian 4 n

/-- The header of an array of `n` items. Part of `msgpack.dumps`, /repo/teleprox/serializer.py:244. -/
def mpArrHead (n : Nat) : Bytes :=
  if n < 16 then [UInt8.ofNat (0x90 + n)]
  else if n < 2 ^ 16 then 0xdc :: bigEndian 2 n
  else 0xdd :: bigEndian 4 n

/-- The header of a map of `n` items. Part of `msgpack.dumps`, /repo/teleprox/serializer.py:244. -/
def mpMapHead (n : Nat) : Bytes :=
  if n < 16 then [UInt8.ofNat (0x80 + n)]
  else if n < 2 ^ 16 then 0xde :: bigEndian 2 n
  else 0xdf :: bigEndian 4 n

mutual
/-- The bytes of a tree; the byte level of `msgpack.dumps`, /repo/teleprox/serializer.py:244. Which trees arise from values is `pack`. Trees that
are too large for the format (which the packer refuses with `ValueError`) are outside its domain. -/
def mpWrite : Wire → Bytes
  | .nil => [0xc0]
  | .bool false => [0xc2]
  | .bool true => [0xc3]
  | .int i => mpInt i
  | .float f => 0xcb :: bigEndian 8 f
  | .str s => mpStrHead (utf8Bytes s).length ++ utf8Bytes s
  | .bin b => mpBinHead b.length ++ b
  | .arr l => mpArrHead l.length ++ mpWriteL l
  | .map m => mpMapHead m.length ++ mpWriteM m

/-- Items of an array. Part of /repo/teleprox/serializer.py:244. -/
def mpWriteL : List Wire → Bytes
  | [] => []
  | w :: ws => mpWrite w ++ mpWriteL ws

/-- Entries of a map. Part of /repo/teleprox/serializer.py:244. -/
def mpWriteM : List (Wire × Wire) → Bytes
  | [] => []
  | (k, w) :: r => mpWrite k ++ (mpWrite w ++ mpWriteM r)
end

/-- The next `k` bytes; `ValueError` ("incomplete input") if there are fewer. Part of `msgpack.loads`, /repo/teleprox/serializer.py:259. -/
def mpTake (k : Nat) (b : Bytes) : Except Exc (Bytes × Bytes) := if b.length < k then .error .valueError else .ok (b.take k, b.drop k)

/-- Use the number in the next `k` bytes. Part of `msgpack.loads`, /repo/teleprox/serializer.py:259. -/
def mpNum {α : Type} (k : Nat) (b : Bytes) (f : Nat → Bytes → Except Exc (α × Bytes)) : Except Exc (α × Bytes) :=
  match mpTake k b with
  | .ok (x, r) => f (ofBigEndian x) r
  | .error e => .error e

/-- The signed number with these bits. Part of `msgpack.loads`, /repo/teleprox/serializer.py:259. -/
def mpSigned (bits n : Nat) : Int := if n < 2 ^ (bits - 1) then n else n - 2 ^ bits

/-- A str of `n` bytes. Part of `msgpack.loads`, /repo/teleprox/serializer.py:259. -/
def mpStr (n : Nat) (b : Bytes) : Except Exc (Wire × Bytes) :=
  match mpTake n b with
  | .ok (x, r) =>
    match utf8Text x with
    | some s => .ok (.str s, r)
    | none => .error .unicodeError
  | .error e => .error e

/-- Bytes of length `n`. Part of `msgpack.loads`, /repo/teleprox/serializer.py:259. -/
def mpBin (n : Nat) (b : Bytes) : Except Exc (Wire × Bytes) :=
  match mpTake n b with
  | .ok (x, r) => .ok (.bin x, r)
  | .error e => .error e

/-- One item, given how arrays and maps are read. Simplification: extension types, which no packer of the package writes, are refused (the library
would make an `ExtType` or `Timestamp`). Byte level of `msgpack.loads`, /repo/teleprox/serializer.py:259. -/
def mpItem (F : FmtLib) (arr map : Nat → Bytes → Except Exc (Wire × Bytes)) : Bytes → Except Exc (Wire × Bytes)
  | [] => .error .valueError
  | t :: b =>
    let t := t.toNat
    if t < 0x80 then .ok (.int t, b)
    else if t < 0x90 then map (t - 0x80) b
    else if t < 0xa0 then arr (t - 0x90) b
    else if t < 0xc0 then mpStr (t - 0xa0) b
    else if t = 0xc0 then .ok (.nil, b)
    else if t = 0xc2 then .ok (.bool false, b)
    else if t = 0xc3 then .ok (.bool true, b)
    else if t = 0xc4 then mpNum 1 b mpBin
    else if t = 0xc5 then mpNum 2 b mpBin
    else if t = 0xc6 then mpNum 4 b mpBin
    else if t = 0xca then mpNum 4 b fun n r => .ok (.float (F.f32 n), r)
    else if t = 0xcb then mpNum 8 b fun n r => .ok (.float n, r)
    else if t = 0xcc then mpNum 1 b fun n r => .ok (.int n, r)
    else if t = 0xcd then mpNum 2 b fun n r => .ok (.int n, r)
    else if t = 0xce then mpNum 4 b fun n r => .ok (.int n, r)
    else if t = 0xcf then mpNum 8 b fun n r => .ok (.int n, r)
    else if t = 0xd0 then mpNum 1 b fun n r => .ok (.int (mpSigned 8 n), r)
    else if t = 0xd1 then mpNum 2 b fun n r => .ok (.int (mpSigned 16 n), r)
    else if t = 0xd2 then mpNum 4 b fun n r => .ok (.int (mpSigned 32 n), r)
    else if t = 0xd3 then mpNum 8 b fun n r => .ok (.int (mpSigned 64 n), r)
    else if t = 0xd9 then mpNum 1 b mpStr
    else if t = 0xda then mpNum 2 b mpStr
    else if t = 0xdb then mpNum 4 b mpStr
    else if t = 0xdc then mpNum 2 b arr
    else if t = 0xdd then mpNum 4 b arr
    else if t = 0xde then mpNum 2 b map
    else if t = 0xdf then mpNum 4 b map
    else if 0xe0 ≤ t then .ok (.int ((t : Int) - 256), b)
    else .error (.other "FormatError")

/-- `n` items one after the other. Part of `msgpack.loads`, /repo/teleprox/serializer.py:259. Simplification: a length larger than the whole message, which the
library refuses at once, is noticed when the data end. -/
def mpItems {α : Type} (f : Bytes → Except Exc (α × Bytes)) : Nat → Bytes → Except Exc (List α × Bytes)
  | 0, b => .ok ([], b)
  | n + 1, b =>
    match f b with
    | .error e => .error e
    | .ok (a, r) =>
      match mpItems f n r with
      | .error e => .error e
      | .ok (l, r) => .ok (a :: l, r)

/-- Key and value. Part of `msgpack.loads`, /repo/teleprox/serializer.py:259. -/
def mpPair (f : Bytes → Except Exc (Wire × Bytes)) (b : Bytes) : Except Exc ((Wire × Wire) × Bytes) :=
  match f b with
  | .error e => .error e
  | .ok (k, r) =>
    match f r with
    | .error e => .error e
    | .ok (w, r) => .ok ((k, w), r)

/-- Read one tree; the first argument is how many containers may still be opened (beyond that `StackError`). Byte level of `msgpack.loads`,
/repo/teleprox/serializer.py:259. -/
def mpRead (F : FmtLib) : Nat → Bytes → Except Exc (Wire × Bytes)
  | 0 => mpItem F (fun _ _ => .error (.other "StackError")) fun _ _ => .error (.other "StackError")
  | d + 1 => mpItem F
      (fun n b => match mpItems (mpRead F d) n b with | .ok (l, r) => .ok (.arr l, r) | .error e => .error e)
      fun n b => match mpItems (mpPair (mpRead F d)) n b with | .ok (m, r) => .ok (.map m, r) | .error e => .error e

/-- The containers that may be nested when reading (`MSGPACK_EMBED_STACK_SIZE`). Limit of /repo/teleprox/serializer.py:259. -/
def mpStack : Nat := 1024

/-- `msgpack.loads` without the hook: the whole message is one tree; /repo/teleprox/serializer.py:259. -/
def mpLoad (F : FmtLib) (b : Bytes) : Except Exc Wire :=
  match mpRead F mpStack b with
  | .ok (w, []) => .ok w
  | .ok (_, _ :: _) => .error (.other "ExtraData")
  | .error e => .error e

/-! ## JSON -/

/-- Four lower case hexadecimal digits. Part of `json.dumps`, /repo/teleprox/serializer.py:286. -/
def hex4 (n : Nat) : List Char := [Nat.digitChar (n / 4096 % 16), Nat.digitChar (n / 256 % 16), Nat.digitChar (n / 16 % 16), Nat.digitChar (n % 16)]

/-- A character inside a JSON string (`ensure_ascii`): everything outside printable ASCII is escaped. Part of `json.dumps`, /repo/teleprox/serializer.py:286. -/
def jsEscape (c : Char) : List Char :=
  if c = '"' then ['\\', '"']
  else if c = '\\' then ['\\', '\\']
  else if c = '\n' then ['\\', 'n']
  else if c = '\r' then ['\\', 'r']
  else if c = '\t' then ['\\', 't']
  else if c.toNat = 0xc then ['\\', 'f']
  else if c.toNat = 8 then ['\\', 'b']
  else if 0x20 ≤ c.toNat ∧ c.toNat ≤ 0x7e then [c]
  else if c.toNat < 0x10000 then '\\' :: 'u' :: hex4 c.toNat
  else '\\' :: 'u' :: hex4 (0xd800 + (c.toNat - 0x10000) / 0x400) ++ '\\' :: 'u' :: hex4 (0xdc00 + (c.toNat - 0x10000) % 0x400)

/-- A JSON string. Part of `json.dumps`, /repo/teleprox/serializer.py:286. -/
def jsString (s : String) : List Char := '"' :: (s.toList.flatMap jsEscape ++ ['"'])

/-- The exponent of a float is all ones: infinite or no number. For `json.dumps`, /repo/teleprox/serializer.py:286. -/
def floatSpecial (f : Nat) : Bool := f / 2 ^ 52 % 2 ^ 11 = 2 ^ 11 - 1

/-- The bits of `float('inf')`, `float('-inf')`, `float('nan')`. For `json.loads`, /repo/teleprox/serializer.py:291. -/
def infBits : Nat := 0x7ff0000000000000
def negInfBits : Nat := 0xfff0000000000000
def nanBits : Nat := 0x7ff8000000000000

/-- A float as JSON text. Part of `json.dumps`, /repo/teleprox/serializer.py:286. -/
def jsFloat (F : FmtLib) (f : Nat) : List Char :=
  if floatSpecial f then
    if f % 2 ^ 52 ≠ 0 then "NaN".toList
    else if f / 2 ^ 63 % 2 = 0 then "Infinity".toList
    else "-Infinity".toList
  else F.floatText f

mutual
/-- The text of a tree; the text level of `json.dumps`, /repo/teleprox/serializer.py:286. Which trees arise from values is `jpack`: they have no bytes and only
str as keys, so nothing is written for other trees. -/
def jsWrite (F : FmtLib) : Wire → List Char
  | .nil => "null".toList
  | .bool true => "true".toList
  | .bool false => "false".toList
  | .int i => intText i
  | .float f => jsFloat F f
  | .str s => jsString s
  | .bin _ => []
  | .arr [] => ['[', ']']
  | .arr (w :: ws) => '[' :: (jsWrite F w ++ jsWriteL F ws)
  | .map [] => ['{', '}']
  | .map ((.str k, w) :: r) => '{' :: (jsString k ++ ':' :: ' ' :: (jsWrite F w ++ jsWriteM F r))
  | .map (_ :: _) => []

/-- The further items of an array, and its end. Part of /repo/teleprox/serializer.py:286. -/
def jsWriteL (F : FmtLib) : List Wire → List Char
  | [] => [']']
  | w :: ws => ',' :: ' ' :: (jsWrite F w ++ jsWriteL F ws)

/-- The further entries of an object, and its end. Part of /repo/teleprox/serializer.py:286. -/
def jsWriteM (F : FmtLib) : List (Wire × Wire) → List Char
  | [] => ['}']
  | (.str k, w) :: r => ',' :: ' ' :: (jsString k ++ ':' :: ' ' :: (jsWrite F w ++ jsWriteM F r))
  | _ :: _ => []
end

/-- `JSONDecodeError`, a subclass of `ValueError`. Raised at /repo/teleprox/serializer.py:291. -/
def jsErr : Exc := .other "JSONDecodeError"

/-- Skip white space. Part of `json.loads`, /repo/teleprox/serializer.py:291. -/
def jsWs (s : List Char) : List Char := s.dropWhile fun c => c = ' ' || c = '\t' || c = '\n' || c = '\r'

/-- A hexadecimal digit. Part of `json.loads`, /repo/teleprox/serializer.py:291. -/
def hexVal (c : Char) : Option Nat :=
  let n := c.toNat
  if 48 ≤ n ∧ n ≤ 57 then some (n - 48)
  else if 97 ≤ n ∧ n ≤ 102 then some (n - 87)
  else if 65 ≤ n ∧ n ≤ 70 then some (n - 55)
  else none

/-- Four hexadecimal digits. Part of `json.loads`, /repo/teleprox/serializer.py:291. -/
def readHex4 : List Char → Option (Nat × List Char)
  | a :: b :: c :: d :: r =>
    match hexVal a, hexVal b, hexVal c, hexVal d with
    | some a, some b, some c, some d => some (((a * 16 + b) * 16 + c) * 16 + d, r)
    | _, _, _, _ => none
  | _ => none

/-- The second half of a surrogate pair, if it follows. Part of `json.loads`, /repo/teleprox/serializer.py:291. -/
def readLow : List Char → Option (Nat × List Char)
  | '\\' :: 'u' :: r =>
    match readHex4 r with
    | some (n, r) => if 0xdc00 ≤ n ∧ n ≤ 0xdfff then some (n, r) else none
    | none => none
  | _ => none

/-- The character after a backslash. Simplification: a lone surrogate, which Python accepts but which is no character, is refused. Part of `json.loads`,
/repo/teleprox/serializer.py:291. -/
def jsUnescape : List Char → Option (Char × List Char)
  | [] => none
  | c :: r =>
    if c = '"' then some ('"', r)
    else if c = '\\' then some ('\\', r)
    else if c = '/' then some ('/', r)
    else if c = 'b' then some (Char.ofNat 8, r)
    else if c = 'f' then some (Char.ofNat 0xc, r)
    else if c = 'n' then some ('\n', r)
    else if c = 'r' then some ('\r', r)
    else if c = 't' then some ('\t', r)
    else if c = 'u' then
      match readHex4 r with
      | none => none
      | some (n, r) =>
        if 0xd800 ≤ n ∧ n ≤ 0xdbff then
          match readLow r with
          | some (m, r) => some (Char.ofNat (0x10000 + (n - 0xd800) * 0x400 + (m - 0xdc00)), r)
          | none => none
        else if 0xdc00 ≤ n ∧ n ≤ 0xdfff then none
        else some (Char.ofNat n, r)
    else none

/-- The rest of a JSON string after the opening quote (`strict`: no control characters); the first argument bounds its length. Part of `json.loads`,
/repo/teleprox/serializer.py:291. -/
def jsScan : Nat → List Char → Option (List Char × List Char)
  | 0, _ => none
  | _, [] => none
  | n + 1, c :: r =>
    if c = '"' then some ([], r)
    else if c = '\\' then
      match jsUnescape r with
      | none => none
      | some (x, r) => (jsScan n r).map fun p => (x :: p.1, p.2)
    else if c.toNat < 0x20 then none
    else (jsScan n r).map fun p => (c :: p.1, p.2)

/-- A JSON string after the opening quote. Part of `json.loads`, /repo/teleprox/serializer.py:291. -/
def jsStr (s : List Char) : Except Exc (String × List Char) :=
  match jsScan s.length s with
  | some (x, r) => .ok (String.ofList x, r)
  | none => .error jsErr

/-- An ASCII digit. Part of `json.loads`, /repo/teleprox/serializer.py:291. -/
def isDig (c : Char) : Bool := 48 ≤ c.toNat && c.toNat ≤ 57

/-- The fraction of a number: a point and at least one digit, else nothing. Part of `json.loads`, /repo/teleprox/serializer.py:291. -/
def jsFrac : List Char → List Char × List Char
  | '.' :: r => if (r.takeWhile isDig).isEmpty then ([], '.' :: r) else ('.' :: r.takeWhile isDig, r.dropWhile isDig)
  | s => ([], s)

/-- The sign of an exponent. Part of `json.loads`, /repo/teleprox/serializer.py:291. -/
def jsSign : List Char → List Char × List Char
  | '+' :: r => (['+'], r)
  | '-' :: r => (['-'], r)
  | r => ([], r)

/-- The exponent of a number: `e` or `E`, a sign or none, at least one digit; else nothing. Part of `json.loads`, /repo/teleprox/serializer.py:291. -/
def jsExp : List Char → List Char × List Char
  | [] => ([], [])
  | c :: r =>
    if c = 'e' ∨ c = 'E' then
      let p := jsSign r
      if (p.2.takeWhile isDig).isEmpty then ([], c :: r) else (c :: (p.1 ++ p.2.takeWhile isDig), p.2.dropWhile isDig)
    else ([], c :: r)

/-- The integer part of a number: 0, or digits not beginning with 0. Part of `json.loads`, /repo/teleprox/serializer.py:291. -/
def jsWhole : List Char → Option (List Char × List Char)
  | [] => none
  | c :: r => if c = '0' then some ([c], r) else if isDig c then some (c :: r.takeWhile isDig, r.dropWhile isDig) else none

/-- A minus sign or none. Part of `json.loads`, /repo/teleprox/serializer.py:291. -/
def jsMinus : List Char → List Char × List Char
  | '-' :: r => (['-'], r)
  | r => ([], r)

/-- A number after its sign; integers have at most 4300 digits. Part of `json.loads`, /repo/teleprox/serializer.py:291. -/
def jsUnsigned (F : FmtLib) (neg s : List Char) : Except Exc (Wire × List Char) :=
  match jsWhole s with
  | none => .error jsErr
  | some (w, r) =>
    if (jsFrac r).1.isEmpty ∧ (jsExp (jsFrac r).2).1.isEmpty then
      if 4300 < w.length then .error .valueError
      else .ok (.int (if neg.isEmpty then (Nat.ofDigitChars 10 w 0 : Nat) else -(Nat.ofDigitChars 10 w 0 : Nat)), (jsExp (jsFrac r).2).2)
    else .ok (.float (F.floatOf (neg ++ (w ++ ((jsFrac r).1 ++ (jsExp (jsFrac r).2).1)))), (jsExp (jsFrac r).2).2)

/-- A number. Part of `json.loads`, /repo/teleprox/serializer.py:291. -/
def jsNumber (F : FmtLib) (s : List Char) : Except Exc (Wire × List Char) := jsUnsigned F (jsMinus s).1 (jsMinus s).2

/-- What follows a word. Part of `json.loads`, /repo/teleprox/serializer.py:291. -/
def afterWord : List Char → List Char → Option (List Char)
  | [], s => some s
  | c :: w, d :: s => if c = d then afterWord w s else none
  | _ :: _, [] => none

/-- One value, given how the insides of arrays and objects are read. Text level of `json.loads`, /repo/teleprox/serializer.py:291. -/
def jsItem (F : FmtLib) (arr obj : List Char → Except Exc (Wire × List Char)) : List Char → Except Exc (Wire × List Char)
  | [] => .error jsErr
  | c :: r =>
    if c = '"' then
      match jsStr r with
      | .ok (s, r) => .ok (.str s, r)
      | .error e => .error e
    else if c = '{' then obj r
    else if c = '[' then arr r
    else
      match afterWord "null".toList (c :: r) with
      | some r => .ok (.nil, r)
      | none =>
      match afterWord "true".toList (c :: r) with
      | some r => .ok (.bool true, r)
      | none =>
      match afterWord "false".toList (c :: r) with
      | some r => .ok (.bool false, r)
      | none =>
      match afterWord "NaN".toList (c :: r) with
      | some r => .ok (.float nanBits, r)
      | none =>
      match afterWord "Infinity".toList (c :: r) with
      | some r => .ok (.float infBits, r)
      | none =>
      match afterWord "-Infinity".toList (c :: r) with
      | some r => .ok (.float negInfBits, r)
      | none => jsNumber F (c :: r)

/-- The items of an array up to its end; the first argument bounds their number. Part of `json.loads`, /repo/teleprox/serializer.py:291. -/
def jsElems (f : List Char → Except Exc (Wire × List Char)) : Nat → List Char → Except Exc (List Wire × List Char)
  | 0, _ => .error jsErr
  | n + 1, s =>
    match f s with
    | .error e => .error e
    | .ok (w, r) =>
      match jsWs r with
      | ']' :: r => .ok ([w], r)
      | ',' :: r =>
        match jsElems f n (jsWs r) with
        | .ok (l, r) => .ok (w :: l, r)
        | .error e => .error e
      | _ => .error jsErr

/-- The inside of an array. Part of `json.loads`, /repo/teleprox/serializer.py:291. -/
def jsArr (f : List Char → Except Exc (Wire × List Char)) (s : List Char) : Except Exc (Wire × List Char) :=
  match jsWs s with
  | ']' :: r => .ok (.arr [], r)
  | r =>
    match jsElems f r.length r with
    | .ok (l, r) => .ok (.arr l, r)
    | .error e => .error e

/-- The entries of an object up to its end; the first argument bounds their number. Part of `json.loads`, /repo/teleprox/serializer.py:291. -/
def jsMembers (f : List Char → Except Exc (Wire × List Char)) : Nat → List Char → Except Exc (List (Wire × Wire) × List Char)
  | n + 1, '"' :: s =>
    match jsStr s with
    | .error e => .error e
    | .ok (k, r) =>
      match jsWs r with
      | ':' :: r =>
        match f (jsWs r) with
        | .error e => .error e
        | .ok (w, r) =>
          match jsWs r with
          | '}' :: r => .ok ([(.str k, w)], r)
          | ',' :: r =>
            match jsMembers f n (jsWs r) with
            | .ok (l, r) => .ok ((.str k, w) :: l, r)
            | .error e => .error e
          | _ => .error jsErr
      | _ => .error jsErr
  | _, _ => .error jsErr

/-- The inside of an object. Part of `json.loads`, /repo/teleprox/serializer.py:291. -/
def jsObj (f : List Char → Except Exc (Wire × List Char)) (s : List Char) : Except Exc (Wire × List Char) :=
  match jsWs s with
  | '}' :: r => .ok (.map [], r)
  | r =>
    match jsMembers f r.length r with
    | .ok (l, r) => .ok (.map l, r)
    | .error e => .error e

/-- Read one value; the first argument is the remaining recursion depth (simplification: each level counts one). Text level of `json.loads`,
/repo/teleprox/serializer.py:291. -/
def jsRead (F : FmtLib) : Nat → List Char → Except Exc (Wire × List Char)
  | 0 => jsItem F (fun _ => .error (.other "RecursionError")) fun _ => .error (.other "RecursionError")
  | d + 1 => jsItem F (jsArr (jsRead F d)) (jsObj (jsRead F d))

/-- `json.loads(msg.decode())` without the hook: the whole text is one value; a byte order mark is refused; /repo/teleprox/serializer.py:291. -/
def jsLoad (F : FmtLib) (b : Bytes) : Except Exc Wire :=
  match utf8Text b with
  | none => .error .unicodeError
  | some s =>
    if s.toList.head? = some (Char.ofNat 0xfeff) then .error jsErr
    else
      match jsRead F jsonDepth (jsWs s.toList) with
      | .ok (w, r) => if (jsWs r).isEmpty then .ok w else .error jsErr
      | .error e => .error e

/-- The bytes clients send; /repo/teleprox/client.py:295-302, /repo/teleprox/serializer.py:244, 286. -/
def bytesCodec (F : FmtLib) : Codec where
  text := utf8Bytes
  num := numBytes
  tree
    | .msgpack, w => mpWrite w
    | .json, w => utf8Bytes (String.ofList (jsWrite F w))

/-- How messages are read; /repo/teleprox/serializer.py:259, 291. -/
def parseBytes (F : FmtLib) : Ser → Bytes → Except Exc Wire
  | .msgpack => mpLoad F
  | .json => jsLoad F

/-- A process that reads messages with these libraries; /repo/teleprox/server.py:243-246. -/
def Heap.withBytes (F : FmtLib) (H : Heap) : Heap := { H with utf8 := utf8Text, intOf := bytesInt, parse := parseBytes F }

end Verif
