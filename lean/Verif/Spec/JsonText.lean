import Verif.Model.Server
/-!
# The texts of JSON

Which tree a text of RFC 8259 stands for, as a grammar, with what Python adds to it (`NaN`, `Infinity`, `-Infinity`) and its limits (4300 digits of an
integer, 1000 levels). Independent of how texts are read (`Verif.Model.Formats`). What number a text with a fraction or an exponent is, is a parameter.
-/
namespace Verif

/-- White space. -/
def JsBlank (s : List Char) : Prop := ∀ c ∈ s, c = ' ' ∨ c = '\t' ∨ c = '\n' ∨ c = '\r'

/-- A decimal digit. -/
def JsDigit (c : Char) : Prop := 48 ≤ c.toNat ∧ c.toNat ≤ 57

/-- A hexadecimal digit, in either case, and its value. -/
def JsHex (c : Char) (v : Nat) : Prop := "0123456789abcdef".toList[v]? = some c ∨ "0123456789ABCDEF".toList[v]? = some c

/-- Four hexadecimal digits and their number. -/
def JsHex4 (t : List Char) (n : Nat) : Prop :=
  ∃ a b c d x y z v, t = [a, b, c, d] ∧ JsHex a x ∧ JsHex b y ∧ JsHex c z ∧ JsHex d v ∧ n = x * 4096 + y * 256 + z * 16 + v

/-- The two-character escapes. -/
def jsEscapes : List (Char × Char) :=
  [('"', '"'), ('\\', '\\'), ('/', '/'), ('b', '\x08'), ('f', '\x0c'), ('n', '\n'), ('r', '\r'), ('t', '\t')]

/-- How a character can be written inside a string: as itself, unless it is a quote, a backslash or a control character; with an escape; with its number; as a pair of
surrogates. -/
inductive JsChar : List Char → Char → Prop
  | plain {c : Char} : c ≠ '"' → c ≠ '\\' → 0x20 ≤ c.toNat → JsChar [c] c
  | escape {e c : Char} : (e, c) ∈ jsEscapes → JsChar ['\\', e] c
  | number {t : List Char} {c : Char} : JsHex4 t c.toNat → JsChar ('\\' :: 'u' :: t) c
  | pair {t u : List Char} {hi lo : Nat} {c : Char} : JsHex4 t hi → JsHex4 u lo → 0xd800 ≤ hi → hi < 0xdc00 → 0xdc00 ≤ lo → lo < 0xe000 →
      c.toNat = 0x10000 + (hi - 0xd800) * 0x400 + (lo - 0xdc00) → JsChar ('\\' :: 'u' :: (t ++ '\\' :: 'u' :: u)) c

/-- The inside of a string and its characters. -/
inductive JsText : List Char → List Char → Prop
  | nil : JsText [] []
  | cons {t u s : List Char} {c : Char} : JsChar t c → JsText u s → JsText (t ++ u) (c :: s)

/-- The integer part of a number: 0, or digits that do not begin with 0. -/
def JsWhole (w : List Char) : Prop := w = ['0'] ∨ ∃ c d, w = c :: d ∧ c ≠ '0' ∧ JsDigit c ∧ ∀ x ∈ d, JsDigit x

/-- The fraction of a number: none, or a point and digits. -/
def JsFrac (f : List Char) : Prop := f = [] ∨ ∃ d, f = '.' :: d ∧ d ≠ [] ∧ ∀ x ∈ d, JsDigit x

/-- The exponent of a number: none, or e in either case, a sign or none, and digits. -/
def JsExp (e : List Char) : Prop :=
  e = [] ∨ ∃ m sg d, e = m :: (sg ++ d) ∧ (m = 'e' ∨ m = 'E') ∧ (sg = [] ∨ sg = ['+'] ∨ sg = ['-']) ∧ d ≠ [] ∧ ∀ x ∈ d, JsDigit x

/-- Numbers: without fraction and exponent an integer, else a float. -/
inductive JsNumber (fl : List Char → Nat) : List Char → Wire → Prop
  | nat {w : List Char} : JsWhole w → w.length ≤ 4300 → JsNumber fl w (.int (Nat.ofDigitChars 10 w 0 : Nat))
  | neg {w : List Char} : JsWhole w → w.length ≤ 4300 → JsNumber fl ('-' :: w) (.int (-(Nat.ofDigitChars 10 w 0 : Nat)))
  | float {m w f e : List Char} : m = [] ∨ m = ['-'] → JsWhole w → JsFrac f → JsExp e → f ≠ [] ∨ e ≠ [] →
      JsNumber fl (m ++ (w ++ (f ++ e))) (.float (fl (m ++ (w ++ (f ++ e)))))

/-- Values other than arrays and objects. The floats are the bits of `nan`, `inf` and `-inf`. -/
inductive JsScalar (fl : List Char → Nat) : List Char → Wire → Prop
  | null : JsScalar fl "null".toList .nil
  | true : JsScalar fl "true".toList (.bool true)
  | false : JsScalar fl "false".toList (.bool false)
  | nan : JsScalar fl "NaN".toList (.float 0x7ff8000000000000)
  | inf : JsScalar fl "Infinity".toList (.float 0x7ff0000000000000)
  | negInf : JsScalar fl "-Infinity".toList (.float 0xfff0000000000000)
  | str {t s : List Char} : JsText t s → JsScalar fl ('"' :: (t ++ ['"'])) (.str (String.ofList s))
  | number {t : List Char} {w : Wire} : JsNumber fl t w → JsScalar fl t w

/-- Values separated by commas. -/
inductive JsItems (V : List Char → Wire → Prop) : List Char → List Wire → Prop
  | last {t a : List Char} {w : Wire} : V t w → JsBlank a → JsItems V (t ++ a) [w]
  | more {t a b u : List Char} {w : Wire} {l : List Wire} : V t w → JsBlank a → JsBlank b → JsItems V u l → JsItems V (t ++ (a ++ ',' :: (b ++ u))) (w :: l)

/-- A string, a colon and a value. -/
def JsEntry (V : List Char → Wire → Prop) (t : List Char) (kv : Wire × Wire) : Prop :=
  ∃ k s a b u, JsText k s ∧ JsBlank a ∧ JsBlank b ∧ V u kv.2 ∧ kv.1 = .str (String.ofList s) ∧ t = '"' :: (k ++ '"' :: (a ++ ':' :: (b ++ u)))

/-- Entries separated by commas. -/
inductive JsEntries (V : List Char → Wire → Prop) : List Char → List (Wire × Wire) → Prop
  | last {t a : List Char} {kv : Wire × Wire} : JsEntry V t kv → JsBlank a → JsEntries V (t ++ a) [kv]
  | more {t a b u : List Char} {kv : Wire × Wire} {l : List (Wire × Wire)} : JsEntry V t kv → JsBlank a → JsBlank b → JsEntries V u l →
      JsEntries V (t ++ (a ++ ',' :: (b ++ u))) (kv :: l)

/-- Values with at most so many arrays and objects inside each other. -/
def JsValue (fl : List Char → Nat) : Nat → List Char → Wire → Prop
  | 0, t, w => JsScalar fl t w
  | d + 1, t, w => JsScalar fl t w ∨
      (∃ b, JsBlank b ∧ t = '[' :: (b ++ [']']) ∧ w = .arr []) ∨
      (∃ b u l, JsBlank b ∧ JsItems (JsValue fl d) u l ∧ t = '[' :: (b ++ (u ++ [']'])) ∧ w = .arr l) ∨
      (∃ b, JsBlank b ∧ t = '{' :: (b ++ ['}']) ∧ w = .map []) ∨
      (∃ b u l, JsBlank b ∧ JsEntries (JsValue fl d) u l ∧ t = '{' :: (b ++ (u ++ ['}'])) ∧ w = .map l)

/-- A whole text: a value in white space. -/
def JsonText (fl : List Char → Nat) (s : List Char) (w : Wire) : Prop :=
  ∃ a t b, JsBlank a ∧ JsBlank b ∧ JsValue fl 1000 t w ∧ s = a ++ (t ++ b)

end Verif
