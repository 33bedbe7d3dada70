import Verif.Proof.Formats
import Verif.Props.Util
/-!
# Proofs: JSON reads what it writes
-/
namespace Verif

/-! ## Strings -/

theorem hexVal_digitChar : ∀ n < 16, hexVal (Nat.digitChar n) = some n := by decide

theorem readHex4_hex4 {n : Nat} (h : n < 65536) (r : List Char) : readHex4 (hex4 n ++ r) = some (n, r) := by
  simp only [hex4, List.cons_append, List.nil_append, readHex4, hexVal_digitChar _ (Nat.mod_lt _ (show 0 < 16 by omega))]
  congr 2; omega

theorem char_range (c : Char) : c.toNat < 0xd800 ∨ (0xe000 ≤ c.toNat ∧ c.toNat < 0x110000) := by
  have := c.valid
  simp only [UInt32.isValidChar, Nat.isValidChar] at this
  have e : c.toNat = c.val.toNat := rfl
  omega

theorem jsUnescape_low {hi lo n : Nat} (h1 : 0xd800 ≤ hi ∧ hi ≤ 0xdbff) (h2 : 0xdc00 ≤ lo ∧ lo ≤ 0xdfff) (e : 0x10000 + (hi - 0xd800) * 0x400 + (lo - 0xdc00) = n) (r : List Char) :
    jsUnescape ('u' :: (hex4 hi ++ '\\' :: 'u' :: (hex4 lo ++ r))) = some (Char.ofNat n, r) := by
  have a1 := readHex4_hex4 (show hi < 65536 by omega) ('\\' :: 'u' :: (hex4 lo ++ r))
  have a2 := readHex4_hex4 (show lo < 65536 by omega) r
  have a3 : readLow ('\\' :: 'u' :: (hex4 lo ++ r)) = some (lo, r) := by
    rw [readLow, a2]
    exact if_pos h2
  simp only [jsUnescape, Char.reduceEq, if_false, if_true, a1, if_pos h1, a3, e]

theorem jsUnescape_pair {n : Nat} (h : 0x10000 ≤ n) (h2 : n < 0x110000) (r : List Char) :
    jsUnescape ('u' :: (hex4 (0xd800 + (n - 0x10000) / 0x400) ++ '\\' :: 'u' :: (hex4 (0xdc00 + (n - 0x10000) % 0x400) ++ r))) = some (Char.ofNat n, r) :=
  jsUnescape_low (by omega) (by omega) (by omega) r

/-- an escaped character is read back -/
theorem jsScan_escape (c : Char) (n : Nat) (r : List Char) : jsScan (n + 1) (jsEscape c ++ r) = (jsScan n r).map fun p => (c :: p.1, p.2) := by
  have key : ∀ t, jsUnescape (t ++ r) = some (c, r) → jsScan (n + 1) ('\\' :: (t ++ r)) = (jsScan n r).map fun p => (c :: p.1, p.2) := by
    intro t ht
    rw [jsScan, if_neg (by decide), if_pos rfl, ht]
  have hofn : ∀ k, c.toNat = k → Char.ofNat k = c := by rintro k rfl; exact Char.ofNat_toNat c
  unfold jsEscape
  split
  · next h => exact key ['"'] (by subst h; rfl)
  split
  · next h => exact key ['\\'] (by subst h; rfl)
  split
  · next h => exact key ['n'] (by subst h; rfl)
  split
  · next h => exact key ['r'] (by subst h; rfl)
  split
  · next h => exact key ['t'] (by subst h; rfl)
  split
  · next h => exact key ['f'] (by rw [← hofn _ h]; rfl)
  split
  · next h => exact key ['b'] (by rw [← hofn _ h]; rfl)
  split
  · next h1 h2 _ _ _ _ _ h =>
    rw [List.cons_append, List.nil_append, jsScan, if_neg h1, if_neg h2, if_neg (by omega)]
  split
  · next h =>
    refine key ('u' :: hex4 c.toNat) ?_
    simp only [List.cons_append, jsUnescape, Char.reduceEq, if_false, if_true]
    rw [readHex4_hex4 h]
    have := char_range c
    simp only
    rw [if_neg (by omega), if_neg (by omega), Char.ofNat_toNat]
  · next h =>
    have h3 := char_range c
    have := jsUnescape_pair (show 0x10000 ≤ c.toNat by omega) (by omega) r
    rw [Char.ofNat_toNat] at this
    have := key ('u' :: (hex4 (0xd800 + (c.toNat - 0x10000) / 0x400) ++ '\\' :: 'u' :: hex4 (0xdc00 + (c.toNat - 0x10000) % 0x400))) (by simpa using this)
    simpa using this

theorem jsScan_text (s : List Char) : ∀ (n : Nat) (r : List Char), s.length < n → jsScan n (s.flatMap jsEscape ++ '"' :: r) = some (s, r) := by
  induction s with
  | nil => intro n r h; cases n with
    | zero => cases h
    | succ n => rfl
  | cons c s ih =>
    intro n r h
    cases n with
    | zero => cases h
    | succ n =>
      rw [List.flatMap_cons, List.append_assoc, jsScan_escape, ih n r (by simpa using h)]
      rfl

theorem jsEscape_ne (c : Char) : 1 ≤ (jsEscape c).length := by
  unfold jsEscape
  repeat' split
  all_goals simp

theorem length_escaped (s : List Char) : s.length ≤ (s.flatMap jsEscape).length := by
  induction s with
  | nil => simp
  | cons c s ih =>
    have := jsEscape_ne c
    simp only [List.flatMap_cons, List.length_append, List.length_cons]
    omega

theorem jsStr_string (s : String) (r : List Char) : jsStr (s.toList.flatMap jsEscape ++ '"' :: r) = .ok (s, r) := by
  have h := length_escaped s.toList
  rw [jsStr, jsScan_text _ _ _ (by simp only [List.length_append, List.length_cons]; omega)]
  simp

/-! ## Numbers -/

/-- What may follow a value. -/
def Ends (r : List Char) : Prop := ∀ c ∈ r.head?, c = ',' ∨ c = ']' ∨ c = '}'

theorem span_digits {d r : List Char} (hd : ∀ c ∈ d, isDig c = true) (hr : ∀ c ∈ r.head?, isDig c = false) : (d ++ r).takeWhile isDig = d ∧ (d ++ r).dropWhile isDig = r := by
  induction d with
  | nil =>
    cases r with
    | nil => simp
    | cons c r => have := hr c (by simp); simp [this]
  | cons c d ih =>
    have h1 := hd c (by simp)
    have := ih fun x hx => hd x (by simp [hx])
    simp [h1, this]

theorem isDig_toDigits {n : Nat} {c : Char} (h : c ∈ Nat.toDigits 10 n) : isDig c = true := by
  have := Nat.isDigit_of_mem_toDigits (by omega) (by omega) h
  simp only [Char.isDigit, Bool.and_eq_true, decide_eq_true_eq] at this
  simp only [isDig, Bool.and_eq_true, decide_eq_true_eq]
  exact this

theorem toDigits_head {n : Nat} (h : 0 < n) : ∃ c d, Nat.toDigits 10 n = c :: d ∧ c ≠ '0' := by
  induction n using Nat.strongRecOn with
  | ind n ih =>
    by_cases hn : n < 10
    · refine ⟨n.digitChar, [], Nat.toDigits_of_lt_base hn, ?_⟩
      simp only [ne_eq, Nat.digitChar_eq_zero]; omega
    · obtain ⟨c, d, h1, h2⟩ := ih (n / 10) (by omega) (by omega)
      rw [Nat.toDigits_of_base_le (by omega) (by omega), h1]
      exact ⟨c, _, rfl, h2⟩

theorem jsWhole_zero (r : List Char) : jsWhole ('0' :: r) = some (['0'], r) := rfl

theorem jsWhole_digits {c : Char} {d r : List Char} (h0 : c ≠ '0') (hc : isDig c = true) (hd : ∀ c ∈ d, isDig c = true) (hr : ∀ c ∈ r.head?, isDig c = false) :
    jsWhole (c :: d ++ r) = some (c :: d, r) := by
  rw [List.cons_append, jsWhole, if_neg h0, if_pos hc, (span_digits hd hr).1, (span_digits hd hr).2]

theorem ends_no {r : List Char} (h : Ends r) : (∀ c ∈ r.head?, isDig c = false) ∧ jsFrac r = ([], r) ∧ jsExp r = ([], r) := by
  cases r with
  | nil => exact ⟨by simp, rfl, rfl⟩
  | cons c r =>
    rcases h c (by simp) with rfl | rfl | rfl
    all_goals refine ⟨by intro c hc; simp only [List.head?_cons, Option.mem_def, Option.some.injEq] at hc; subst hc; decide, rfl, rfl⟩

theorem jsNumber_int (F : FmtLib) (i : Int) (h : i.natAbs < maxIntText) {r : List Char} (hr : Ends r) : jsNumber F (intText i ++ r) = .ok (.int i, r) := by
  obtain ⟨h1, h2, h3⟩ := ends_no hr
  unfold maxIntText at h
  have hlen : ¬ 4300 < (Nat.toDigits 10 i.natAbs).length := by
    have := (Nat.length_toDigits_le_iff (b := 10) (n := i.natAbs) (k := 4300) (by decide) (by decide)).2 h
    omega
  have hw : jsWhole (Nat.toDigits 10 i.natAbs ++ r) = some (Nat.toDigits 10 i.natAbs, r) := by
    by_cases h0 : i.natAbs = 0
    · rw [h0, Nat.toDigits_zero]; rfl
    · obtain ⟨c, d, e, hc⟩ := toDigits_head (show 0 < i.natAbs by omega)
      have hall : ∀ x ∈ Nat.toDigits 10 i.natAbs, isDig x = true := fun x hx => isDig_toDigits hx
      rw [e] at hall ⊢
      exact jsWhole_digits hc (hall c (by simp)) (fun x hx => hall x (by simp [hx])) h1
  have hnm : ∀ (x : List Char), Nat.toDigits 10 i.natAbs ++ r ≠ '-' :: x := by
    intro x hx
    obtain ⟨c, d, e⟩ := List.exists_cons_of_ne_nil (@Nat.toDigits_ne_nil i.natAbs 10)
    rw [e] at hx
    have := isDig_toDigits (n := i.natAbs) (c := c) (by rw [e]; simp)
    cases hx
    exact absurd this (by decide)
  unfold jsNumber intText
  split
  · next hneg =>
    show jsUnsigned F ['-'] (Nat.toDigits 10 i.natAbs ++ r) = _
    simp only [jsUnsigned, hw, h2, h3, List.isEmpty_nil, and_self, if_true, if_neg hlen, Nat.ofDigitChars_ten_toDigits, List.isEmpty_cons, Bool.false_eq_true, if_false]
    rw [show -(i.natAbs : Int) = i by omega]
  · next hneg =>
    have e : jsMinus (Nat.toDigits 10 i.natAbs ++ r) = ([], Nat.toDigits 10 i.natAbs ++ r) := by
      unfold jsMinus
      split
      · next x hx => exact absurd hx (hnm x)
      · rfl
    rw [e]
    simp only [jsUnsigned, hw, h2, h3, List.isEmpty_nil, and_self, if_true, if_neg hlen, Nat.ofDigitChars_ten_toDigits]
    rw [show (i.natAbs : Int) = i by omega]

theorem jsFrac_digits {d r : List Char} (hne : d ≠ []) (hd : ∀ c ∈ d, isDig c = true) (hr : ∀ c ∈ r.head?, isDig c = false) : jsFrac ('.' :: (d ++ r)) = ('.' :: d, r) := by
  have h := span_digits hd hr
  rw [jsFrac, h.1, h.2]
  cases d with
  | nil => exact absurd rfl hne
  | cons _ _ => rfl

theorem jsExp_digits {sg : Char} {d r : List Char} (hs : sg = '+' ∨ sg = '-') (hne : d ≠ []) (hd : ∀ c ∈ d, isDig c = true) (hr : ∀ c ∈ r.head?, isDig c = false) :
    jsExp ('e' :: sg :: (d ++ r)) = ('e' :: sg :: d, r) := by
  have h := span_digits hd hr
  have e : jsSign (sg :: (d ++ r)) = ([sg], d ++ r) := by rcases hs with rfl | rfl <;> rfl
  rw [jsExp, if_pos (.inl rfl)]
  simp only [e, h.1, h.2]
  cases d with
  | nil => exact absurd rfl hne
  | cons _ _ => rfl

/-- The texts of numbers, as far as needed to tell them from other values. -/
def NumStart (s : List Char) : Prop := (∃ c r, s = c :: r ∧ isDig c = true) ∨ ∃ c r, s = '-' :: c :: r ∧ isDig c = true

theorem jsNumber_float (F : FmtLib) {t : List Char} (h : FloatForm t) {r : List Char} (hr : Ends r) : jsNumber F (t ++ r) = .ok (.float (F.floatOf t), r) ∧ NumStart t := by
  obtain ⟨h1, h2, h3⟩ := ends_no hr
  obtain ⟨neg, w, fr, ex, rfl, hneg, hw, hfr, hex, hne⟩ := h
  have dig : ∀ {d : List Char}, (∀ x ∈ d, 48 ≤ x.toNat ∧ x.toNat ≤ 57) → ∀ x ∈ d, isDig x = true := by
    intro d hd x hx
    simpa [isDig] using hd x hx
  -- the exponent
  have e1 : jsExp (ex ++ r) = (ex, r) ∧ ∀ c ∈ (ex ++ r).head?, isDig c = false ∧ c ≠ '.' := by
    rcases hex with rfl | ⟨sg, d, rfl, hs, hdn, hd⟩
    · refine ⟨h3, ?_⟩
      intro c hc
      refine ⟨h1 c hc, ?_⟩
      rcases hr c hc with rfl | rfl | rfl <;> decide
    · refine ⟨jsExp_digits hs hdn (dig hd) h1, ?_⟩
      intro c hc
      simp only [List.cons_append, List.head?_cons, Option.mem_def, Option.some.injEq] at hc
      subst hc; decide
  -- the fraction
  have e2 : jsFrac (fr ++ (ex ++ r)) = (fr, ex ++ r) ∧ ∀ c ∈ (fr ++ (ex ++ r)).head?, isDig c = false := by
    rcases hfr with rfl | ⟨d, rfl, hdn, hd⟩
    · refine ⟨?_, fun c hc => (e1.2 c hc).1⟩
      rw [List.nil_append]
      have := e1.2
      generalize ex ++ r = z at this
      unfold jsFrac
      split
      · next x => exact absurd rfl (this '.' (by simp)).2
      · rfl
    · refine ⟨jsFrac_digits hdn (dig hd) fun c hc => (e1.2 c hc).1, ?_⟩
      intro c hc
      simp only [List.cons_append, List.head?_cons, Option.mem_def, Option.some.injEq] at hc
      subst hc; decide
  -- the whole part
  have e3 : jsWhole (w ++ (fr ++ (ex ++ r))) = some (w, fr ++ (ex ++ r)) ∧ ∃ c x, w = c :: x ∧ isDig c = true := by
    rcases hw with rfl | ⟨c, d, rfl, h0, hc, hd⟩
    · exact ⟨rfl, '0', [], rfl, by decide⟩
    · have hc' : isDig c = true := by simpa [isDig] using hc
      exact ⟨jsWhole_digits h0 hc' (dig hd) e2.2, c, d, rfl, hc'⟩
  have hun : ∀ neg, jsUnsigned F neg (w ++ (fr ++ (ex ++ r))) = .ok (.float (F.floatOf (neg ++ (w ++ (fr ++ ex)))), r) := by
    intro neg
    rw [jsUnsigned, e3.1]
    simp only [e2.1, e1.1]
    rw [if_neg]
    intro hh
    rcases hne with hne | hne
    · exact hne (List.isEmpty_iff.1 hh.1)
    · exact hne (List.isEmpty_iff.1 hh.2)
  obtain ⟨-, c, x, hwc, hcd⟩ := e3
  rcases hneg with rfl | rfl
  · refine ⟨?_, .inl ⟨c, x ++ (fr ++ ex), by rw [hwc]; rfl, hcd⟩⟩
    have e : jsMinus ([] ++ (w ++ (fr ++ ex)) ++ r) = ([], w ++ (fr ++ (ex ++ r))) := by
      rw [hwc]
      simp only [List.nil_append, List.cons_append, List.append_assoc]
      unfold jsMinus
      split
      · next y hy => cases hy; exact absurd hcd (by decide)
      · rfl
    rw [jsNumber, e]
    exact hun []
  · refine ⟨?_, .inr ⟨c, x ++ (fr ++ ex), by rw [hwc]; rfl, hcd⟩⟩
    have e : jsMinus (['-'] ++ (w ++ (fr ++ ex)) ++ r) = (['-'], w ++ (fr ++ (ex ++ r))) := by
      simp only [List.nil_append, List.cons_append, List.append_assoc]
      rfl
    rw [jsNumber, e]
    exact hun ['-']

theorem intText_start (i : Int) : NumStart (intText i) := by
  obtain ⟨c, d, e⟩ := List.exists_cons_of_ne_nil (@Nat.toDigits_ne_nil i.natAbs 10)
  have := isDig_toDigits (n := i.natAbs) (c := c) (by rw [e]; simp)
  unfold intText
  split
  · rw [e]; exact .inr ⟨c, d, rfl, this⟩
  · rw [e]; exact .inl ⟨c, d, rfl, this⟩

/-- a number is read as one -/
theorem jsItem_number (F : FmtLib) (arr obj) {s : List Char} (h : NumStart s) (r : List Char) : jsItem F arr obj (s ++ r) = jsNumber F (s ++ r) := by
  have ne : ∀ {c x : Char}, isDig c = true → isDig x = false → c ≠ x := by rintro c _ h1 h2 rfl; rw [h1] at h2; cases h2
  rcases h with ⟨c, x, rfl, hc⟩ | ⟨c, x, rfl, hc⟩
  · have aw : ∀ (a : Char) w y, isDig a = false → afterWord (a :: w) (c :: y) = none := by
      intro a w y ha
      rw [afterWord, if_neg fun e => ne hc ha e.symm]
    rw [List.cons_append, jsItem, if_neg (ne hc (by decide)), if_neg (ne hc (by decide)), if_neg (ne hc (by decide))]
    rw [show "null".toList = 'n' :: ['u', 'l', 'l'] from rfl, show "true".toList = 't' :: ['r', 'u', 'e'] from rfl, show "false".toList = 'f' :: ['a', 'l', 's', 'e'] from rfl,
      show "NaN".toList = 'N' :: ['a', 'N'] from rfl, show "Infinity".toList = 'I' :: ['n', 'f', 'i', 'n', 'i', 't', 'y'] from rfl,
      show "-Infinity".toList = '-' :: ['I', 'n', 'f', 'i', 'n', 'i', 't', 'y'] from rfl]
    simp only [aw _ _ _ (show isDig 'n' = false by decide), aw _ _ _ (show isDig 't' = false by decide), aw _ _ _ (show isDig 'f' = false by decide),
      aw _ _ _ (show isDig 'N' = false by decide), aw _ _ _ (show isDig 'I' = false by decide), aw _ _ _ (show isDig '-' = false by decide)]
  · have e : afterWord "-Infinity".toList ('-' :: c :: (x ++ r)) = none := by
      rw [show "-Infinity".toList = '-' :: 'I' :: ['n', 'f', 'i', 'n', 'i', 't', 'y'] from rfl, afterWord, if_pos rfl, afterWord, if_neg fun e => ne hc (show isDig 'I' = false by decide) e.symm]
    rw [List.cons_append, List.cons_append, jsItem, if_neg (by decide), if_neg (by decide), if_neg (by decide)]
    rw [e]
    rfl

/-! ## Trees -/

/-- An item of the format, within its sizes. -/
def jsFine (w : Wire) : Bool := w.all (fun w => Ser.smallItem .json w && Ser.hasItem .json w)
def jsFineL (w : List Wire) : Bool := Wire.allL (fun w => Ser.smallItem .json w && Ser.hasItem .json w) w
def jsFineM (w : List (Wire × Wire)) : Bool := Wire.allM (fun w => Ser.smallItem .json w && Ser.hasItem .json w) w

/-- No white space, no end of an array. -/
def Starts (s : List Char) : Prop := ∃ c r, s = c :: r ∧ c ≠ ' ' ∧ c ≠ '\t' ∧ c ≠ '\n' ∧ c ≠ '\r' ∧ c ≠ ']'

theorem Starts.append {s : List Char} (h : Starts s) (r : List Char) : Starts (s ++ r) := by
  obtain ⟨c, x, rfl, h⟩ := h
  exact ⟨c, x ++ r, rfl, h⟩

theorem Starts.ws {s : List Char} (h : Starts s) : jsWs s = s := by
  obtain ⟨c, x, rfl, h⟩ := h
  simp [jsWs, h]

theorem Starts.ws' {s : List Char} (h : Starts s) : jsWs (' ' :: s) = s := h.ws

theorem jsWs_colon (s : List Char) : jsWs (':' :: s) = ':' :: s := rfl
theorem jsWs_comma (s : List Char) : jsWs (',' :: s) = ',' :: s := rfl
theorem jsWs_brace (s : List Char) : jsWs ('}' :: s) = '}' :: s := rfl

theorem NumStart.starts {s : List Char} (h : NumStart s) : Starts s := by
  rcases h with ⟨c, x, rfl, hc⟩ | ⟨c, x, rfl, hc⟩
  · refine ⟨c, x, rfl, ?_⟩
    refine ⟨?_, ?_, ?_, ?_, ?_⟩ <;> (rintro rfl; revert hc; decide)
  · exact ⟨'-', _, rfl, by decide⟩

theorem jsFloat_cases {F : FmtLib} (hF : F.Laws) {f : Nat} (h : f < 2 ^ 64) (hn : isNan f = false ∨ f = nanBits) :
    (f = nanBits ∧ jsFloat F f = "NaN".toList) ∨ (f = infBits ∧ jsFloat F f = "Infinity".toList) ∨ (f = negInfBits ∧ jsFloat F f = "-Infinity".toList) ∨
      (jsFloat F f = F.floatText f ∧ FloatForm (F.floatText f) ∧ F.floatOf (F.floatText f) = f) := by
  by_cases hs : floatSpecial f = true
  · have hs' := hs
    simp only [floatSpecial, decide_eq_true_eq] at hs'
    simp only [jsFloat, if_pos hs]
    by_cases hm : f % 2 ^ 52 = 0
    · have : ¬ f % 2 ^ 52 ≠ 0 := fun h => h hm
      simp only [if_neg this]
      by_cases hp : f / 2 ^ 63 % 2 = 0
      · simp only [if_pos hp]
        exact .inr (.inl ⟨by simp only [infBits]; omega, trivial⟩)
      · simp only [if_neg hp]
        exact .inr (.inr (.inl ⟨by simp only [negInfBits]; omega, trivial⟩))
    · simp only [if_pos (show f % 2 ^ 52 ≠ 0 from hm)]
      refine .inl ⟨?_, trivial⟩
      rcases hn with hn | hn
      · simp only [isNan, Bool.and_eq_false_imp, decide_eq_true_eq] at hn
        have := hn (by omega)
        simp [hm] at this
      · exact hn
  · simp only [jsFloat, if_neg hs]
    simp only [floatSpecial, decide_eq_true_eq] at hs
    exact .inr (.inr (.inr ⟨trivial, hF.form f h hs, hF.exact f h hs⟩))

theorem jsFloat_starts {F : FmtLib} (hF : F.Laws) {f : Nat} (h : f < 2 ^ 64) (hn : isNan f = false ∨ f = nanBits) : Starts (jsFloat F f) := by
  rcases jsFloat_cases hF h hn with ⟨_, e⟩ | ⟨_, e⟩ | ⟨_, e⟩ | ⟨e, h1, _⟩
  · rw [e]; exact ⟨'N', _, rfl, by decide⟩
  · rw [e]; exact ⟨'I', _, rfl, by decide⟩
  · rw [e]; exact ⟨'-', _, rfl, by decide⟩
  · rw [e]; exact (jsNumber_float F h1 (r := []) (by intro c hc; simp at hc)).2.starts

theorem jsFine_float {f : Nat} (h : jsFine (.float f) = true) : f < 2 ^ 64 ∧ (isNan f = false ∨ f = nanBits) := by
  simp only [jsFine, Wire.all, Ser.smallItem, Ser.hasItem, Bool.and_true, Bool.and_eq_true, Bool.or_eq_true, Bool.not_eq_true', decide_eq_true_eq] at h
  exact h

theorem jsItem_float {F : FmtLib} (hF : F.Laws) (arr obj) {f : Nat} (h : jsFine (.float f) = true) {r : List Char} (hr : Ends r) :
    jsItem F arr obj (jsFloat F f ++ r) = .ok (.float f, r) := by
  obtain ⟨h1, h2⟩ := jsFine_float h
  rcases jsFloat_cases hF h1 h2 with ⟨rfl, e⟩ | ⟨rfl, e⟩ | ⟨rfl, e⟩ | ⟨e, h3, h4⟩
  · rw [e]; rfl
  · rw [e]; rfl
  · rw [e]; rfl
  · obtain ⟨h5, h6⟩ := jsNumber_float F h3 hr
    rw [e, jsItem_number F arr obj h6, h5, h4]

theorem jsString_append (s : String) (r : List Char) : jsString s ++ r = '"' :: (s.toList.flatMap jsEscape ++ '"' :: r) := by
  simp [jsString]

theorem jsItem_string (F : FmtLib) (arr obj) (s : String) (r : List Char) : jsItem F arr obj (jsString s ++ r) = .ok (.str s, r) := by
  rw [jsString_append, jsItem, if_pos rfl, jsStr_string]

theorem jsWrite_starts {F : FmtLib} (hF : F.Laws) {w : Wire} (h : jsFine w = true) : Starts (jsWrite F w) := by
  cases w with
  | nil => rw [jsWrite]; exact ⟨'n', _, rfl, by decide⟩
  | bool b => cases b <;> (rw [jsWrite]; exact ⟨_, _, rfl, by decide⟩)
  | int i => rw [jsWrite]; exact (intText_start i).starts
  | float f => rw [jsWrite]; exact jsFloat_starts hF (jsFine_float h).1 (jsFine_float h).2
  | str s => rw [jsWrite]; exact ⟨'"', _, rfl, by decide⟩
  | bin b => simp [jsFine, Wire.all, Ser.hasItem] at h
  | arr l => cases l <;> (rw [jsWrite]; exact ⟨'[', _, rfl, by decide⟩)
  | map m =>
    cases m with
    | nil => rw [jsWrite]; exact ⟨'{', _, rfl, by decide⟩
    | cons kv m =>
      obtain ⟨k, w⟩ := kv
      cases k with
      | str s => rw [jsWrite]; exact ⟨'{', _, rfl, by decide⟩
      | _ => simp [jsFine, Wire.all, Ser.hasItem] at h

theorem jsWriteL_length (F : FmtLib) : ∀ l : List Wire, l.length < (jsWriteL F l).length
  | [] => by simp [jsWriteL]
  | w :: ws => by
    have := jsWriteL_length F ws
    simp only [jsWriteL, List.length_cons, List.length_append]
    omega

theorem jsWriteM_length (F : FmtLib) : ∀ l : List (Wire × Wire), (∀ kv ∈ l, ∃ s, kv.1 = Wire.str s) → l.length < (jsWriteM F l).length
  | [], _ => by simp [jsWriteM]
  | (k, w) :: ws, h => by
    obtain ⟨s, hs⟩ := h (k, w) (by simp)
    simp only at hs
    subst hs
    have := jsWriteM_length F ws fun kv hkv => h kv (by simp [hkv])
    simp only [jsWriteM, List.length_cons, List.length_append]
    omega

/-- The keys are texts. -/
def StrKeys (m : List (Wire × Wire)) : Prop := ∀ kv ∈ m, ∃ s, kv.1 = Wire.str s

theorem jsFine_map {m : List (Wire × Wire)} (h : jsFine (.map m) = true) : StrKeys m ∧ jsFineM m = true := by
  simp only [jsFine, Wire.all, Ser.smallItem, Ser.hasItem, Bool.true_and, Bool.and_eq_true, List.all_eq_true] at h
  refine ⟨?_, h.2⟩
  intro kv hkv
  have := h.1 kv hkv
  split at this
  · next s hs => exact ⟨s, hs⟩
  · cases this

theorem jsFine_arr {l : List Wire} (h : jsFine (.arr l) = true) : jsFineL l = true := by
  simp only [jsFine, Wire.all, Ser.smallItem, Ser.hasItem, Bool.true_and] at h
  exact h

theorem ends_comma (x : List Char) : Ends (',' :: x) := by intro c hc; simp only [List.head?_cons, Option.mem_def, Option.some.injEq] at hc; exact .inl hc.symm
theorem ends_bracket (x : List Char) : Ends (']' :: x) := by intro c hc; simp only [List.head?_cons, Option.mem_def, Option.some.injEq] at hc; exact .inr (.inl hc.symm)
theorem ends_brace (x : List Char) : Ends ('}' :: x) := by intro c hc; simp only [List.head?_cons, Option.mem_def, Option.some.injEq] at hc; exact .inr (.inr hc.symm)

theorem jsRead_eq (F : FmtLib) (d : Nat) : ∃ arr obj, jsRead F d = jsItem F arr obj := by cases d <;> exact ⟨_, _, rfl⟩

mutual
theorem jsRead_write {F : FmtLib} (hF : F.Laws) : ∀ (w : Wire) (d : Nat) (r : List Char), jsFine w = true → w.nesting ≤ d → Ends r → jsRead F d (jsWrite F w ++ r) = .ok (w, r)
  | .nil, d, r, _, _, _ => by cases d <;> rfl
  | .bool true, d, r, _, _, _ => by cases d <;> rfl
  | .bool false, d, r, _, _, _ => by cases d <;> rfl
  | .int i, d, r, h, _, hr => by
    simp only [jsFine, Wire.all, Ser.smallItem, Ser.hasItem, Bool.and_true, decide_eq_true_eq] at h
    obtain ⟨arr, obj, e⟩ := jsRead_eq F d
    rw [jsWrite, e, jsItem_number F arr obj (intText_start i), jsNumber_int F i h hr]
  | .float f, d, r, h, _, hr => by
    obtain ⟨arr, obj, e⟩ := jsRead_eq F d
    rw [jsWrite, e, jsItem_float hF arr obj h hr]
  | .str s, d, r, h, _, _ => by
    obtain ⟨arr, obj, e⟩ := jsRead_eq F d
    rw [jsWrite, e, jsItem_string]
  | .bin b, d, r, h, _, _ => by simp [jsFine, Wire.all, Ser.hasItem] at h
  | .arr l, 0, r, _, hn, _ => by simp [Wire.nesting] at hn
  | .arr [], d + 1, r, _, _, _ => rfl
  | .arr (w :: ws), d + 1, r, h, hn, _ => by
    have h1 := jsFine_arr h
    simp only [Wire.nesting, Nat.add_le_add_iff_right] at hn
    have h2 : jsFine w = true := by simp only [jsFineL, Wire.allL, Bool.and_eq_true] at h1; exact h1.1
    have e := jsElems_write hF (w :: ws) d r ((jsWrite F w ++ (jsWriteL F ws ++ r)).length) (by simp) h1 hn (by
      have := jsWriteL_length F ws
      obtain ⟨c, x, hc, _⟩ := jsWrite_starts hF h2
      simp only [List.length_append, List.length_cons, hc]
      omega)
    have hs := (jsWrite_starts hF h2).append (jsWriteL F ws ++ r)
    rw [jsWrite, List.cons_append, List.append_assoc]
    rw [jsRead, jsItem, if_neg (by decide), if_neg (by decide), if_pos rfl, jsArr, hs.ws]
    obtain ⟨c, x, hc, hne⟩ := hs
    simp only [List.append_assoc] at e
    rw [hc] at e ⊢
    split
    · next y hy => cases hy; exact absurd rfl hne.2.2.2.2
    · simp only [e]
  | .map m, 0, r, _, hn, _ => by simp [Wire.nesting] at hn
  | .map [], d + 1, r, _, _, _ => rfl
  | .map ((.str k, w) :: ws), d + 1, r, h, hn, _ => by
    obtain ⟨hk, h1⟩ := jsFine_map h
    simp only [Wire.nesting, Nat.add_le_add_iff_right] at hn
    have e := jsMembers_write hF ((.str k, w) :: ws) d r ((jsString k ++ ':' :: ' ' :: (jsWrite F w ++ (jsWriteM F ws ++ r))).length) (by simp) hk h1 hn (by
      have := jsWriteM_length F ws fun kv hkv => hk kv (by simp [hkv])
      simp only [List.length_append, List.length_cons]
      omega)
    have hs : Starts (jsString k ++ ':' :: ' ' :: (jsWrite F w ++ (jsWriteM F ws ++ r))) := Starts.append ⟨'"', _, rfl, by decide⟩ _
    rw [jsWrite, List.cons_append, List.append_assoc, List.cons_append, List.cons_append, List.append_assoc]
    rw [jsRead, jsItem, if_neg (by decide), if_pos rfl, jsObj, hs.ws]
    simp only [List.append_assoc, List.cons_append] at e
    rw [jsString_append] at e ⊢
    split
    · next y hy => cases hy
    · simp only [e]
  | .map ((.nil, w) :: ws), d + 1, r, h, hn, _ => by obtain ⟨s, hs⟩ := (jsFine_map h).1 (.nil, w) (by simp); cases hs
  | .map ((.bool _, w) :: ws), d + 1, r, h, hn, _ => by obtain ⟨s, hs⟩ := (jsFine_map h).1 _ (List.mem_cons_self); cases hs
  | .map ((.int _, w) :: ws), d + 1, r, h, hn, _ => by obtain ⟨s, hs⟩ := (jsFine_map h).1 _ (List.mem_cons_self); cases hs
  | .map ((.float _, w) :: ws), d + 1, r, h, hn, _ => by obtain ⟨s, hs⟩ := (jsFine_map h).1 _ (List.mem_cons_self); cases hs
  | .map ((.bin _, w) :: ws), d + 1, r, h, hn, _ => by obtain ⟨s, hs⟩ := (jsFine_map h).1 _ (List.mem_cons_self); cases hs
  | .map ((.arr _, w) :: ws), d + 1, r, h, hn, _ => by obtain ⟨s, hs⟩ := (jsFine_map h).1 _ (List.mem_cons_self); cases hs
  | .map ((.map _, w) :: ws), d + 1, r, h, hn, _ => by obtain ⟨s, hs⟩ := (jsFine_map h).1 _ (List.mem_cons_self); cases hs

theorem jsElems_write {F : FmtLib} (hF : F.Laws) : ∀ (l : List Wire) (d : Nat) (r : List Char) (n : Nat), l ≠ [] → jsFineL l = true → Wire.nestingL l ≤ d → l.length ≤ n →
    jsElems (jsRead F d) n ((match l with | [] => [] | w :: ws => jsWrite F w ++ jsWriteL F ws) ++ r) = .ok (l, r)
  | [], _, _, _, h, _, _, _ => absurd rfl h
  | w :: ws, d, r, 0, _, _, _, hl => by simp at hl
  | w :: ws, d, r, n + 1, _, h, hn, hl => by
    simp only [jsFineL, Wire.allL, Bool.and_eq_true] at h
    simp only [Wire.nestingL] at hn
    simp only [List.length_cons, Nat.add_le_add_iff_right] at hl
    have ih : ws ≠ [] → _ := fun hne => jsElems_write hF ws d r n hne h.2 (by omega) hl
    have hw := fun r' (hr' : Ends r') => jsRead_write hF w d r' h.1 (by omega) hr'
    have hst := fun (hne : ws ≠ []) => (show ∃ w' ws', ws = w' :: ws' ∧ Starts (jsWrite F w') from by
      cases ws with
      | nil => exact absurd rfl hne
      | cons w' ws' =>
        have h2 := h.2
        simp only [Wire.allL, Bool.and_eq_true] at h2
        exact ⟨w', ws', rfl, jsWrite_starts hF h2.1⟩)
    cases ws with
    | nil =>
      simp only [jsWriteL, List.append_assoc, List.cons_append, List.nil_append]
      rw [jsElems, hw _ (ends_bracket _)]
      rfl
    | cons w' ws' =>
      obtain ⟨_, _, e, hs⟩ := hst (by simp)
      cases e
      have ih := ih (by simp)
      simp only [List.append_assoc] at ih
      simp only [jsWriteL, List.append_assoc, List.cons_append]
      rw [jsElems, hw _ (ends_comma _)]
      show (match jsElems (jsRead F d) n (jsWs (' ' :: _)) with | .ok (l, r) => Except.ok (w :: l, r) | .error e => .error e) = _
      have e2 : jsWs (' ' :: (jsWrite F w' ++ (jsWriteL F ws' ++ r))) = jsWrite F w' ++ (jsWriteL F ws' ++ r) := (hs.append (jsWriteL F ws' ++ r)).ws'
      rw [e2, ih]

theorem jsMembers_write {F : FmtLib} (hF : F.Laws) : ∀ (l : List (Wire × Wire)) (d : Nat) (r : List Char) (n : Nat), l ≠ [] → StrKeys l → jsFineM l = true → Wire.nestingM l ≤ d → l.length ≤ n →
    jsMembers (jsRead F d) n ((match l with | (.str k, w) :: ws => jsString k ++ ':' :: ' ' :: (jsWrite F w ++ jsWriteM F ws) | _ => []) ++ r) = .ok (l, r)
  | [], _, _, _, h, _, _, _, _ => absurd rfl h
  | (k, w) :: ws, d, r, 0, _, _, _, _, hl => by simp at hl
  | (k, w) :: ws, d, r, n + 1, _, hk, h, hn, hl => by
    simp only [jsFineM, Wire.allM, Bool.and_eq_true] at h
    simp only [Wire.nestingM] at hn
    simp only [List.length_cons, Nat.add_le_add_iff_right] at hl
    have hk' : StrKeys ws := fun kv hkv => hk kv (by simp [hkv])
    have ih : ws ≠ [] → _ := fun hne => jsMembers_write hF ws d r n hne hk' h.2.2 (by omega) hl
    have hw := fun r' (hr' : Ends r') => jsRead_write hF w d r' h.2.1 (by omega) hr'
    have hs := jsWrite_starts hF h.2.1
    obtain ⟨s, e⟩ := hk (k, w) (by simp)
    simp only at e
    subst e
    have hsw : ∀ x, jsWs (' ' :: (jsWrite F w ++ x)) = jsWrite F w ++ x := fun x => (hs.append x).ws'
    cases ws with
    | nil =>
      simp only [jsWriteM, List.append_assoc, List.cons_append, List.nil_append]
      rw [jsString_append, jsMembers, jsStr_string]
      simp only [jsWs_colon, hsw, hw _ (ends_brace _), jsWs_brace]
    | cons kv ws' =>
      have ih := ih (by simp)
      obtain ⟨k', w'⟩ := kv
      obtain ⟨s', e⟩ := hk' (k', w') (by simp)
      simp only at e
      subst e
      simp only [List.append_assoc, List.cons_append] at ih
      simp only [jsWriteM, List.append_assoc, List.cons_append]
      rw [jsString_append, jsMembers, jsStr_string]
      simp only [jsWs_colon, hsw, hw _ (ends_comma _), jsWs_comma]
      have hs' : Starts (jsString s' ++ ':' :: ' ' :: (jsWrite F w' ++ (jsWriteM F ws' ++ r))) := Starts.append ⟨'"', _, rfl, by decide⟩ _
      have e2 : jsWs (' ' :: (jsString s' ++ ':' :: ' ' :: (jsWrite F w' ++ (jsWriteM F ws' ++ r)))) = jsString s' ++ ':' :: ' ' :: (jsWrite F w' ++ (jsWriteM F ws' ++ r)) := hs'.ws'
      rw [e2, ih]
end

/-- Printable ASCII characters only. -/
def Ascii (s : List Char) : Prop := ∀ c ∈ s, 0x20 ≤ c.toNat ∧ c.toNat ≤ 0x7e

theorem Ascii.append {s t : List Char} (h1 : Ascii s) (h2 : Ascii t) : Ascii (s ++ t) := by
  intro c hc
  rcases List.mem_append.1 hc with h | h
  · exact h1 c h
  · exact h2 c h

theorem Ascii.cons {c : Char} {t : List Char} (h1 : 0x20 ≤ c.toNat ∧ c.toNat ≤ 0x7e) (h2 : Ascii t) : Ascii (c :: t) := by
  intro x hx
  rcases List.mem_cons.1 hx with rfl | h
  · exact h1
  · exact h2 x h

theorem ascii_nil : Ascii [] := by intro c hc; cases hc

theorem ascii_digits {d : List Char} (h : ∀ c ∈ d, isDig c = true) : Ascii d := by
  intro c hc
  have := h c hc
  simp only [isDig, Bool.and_eq_true, decide_eq_true_eq] at this
  omega

theorem ascii_hex4 (n : Nat) : Ascii (hex4 n) := by
  have key : ∀ k < 16, 0x20 ≤ (Nat.digitChar k).toNat ∧ (Nat.digitChar k).toNat ≤ 0x7e := by decide
  have k2 := fun m => key (m % 16) (Nat.mod_lt _ (by decide))
  exact .cons (k2 _) (.cons (k2 _) (.cons (k2 _) (.cons (k2 _) ascii_nil)))

theorem ascii_escape (c : Char) : Ascii (jsEscape c) := by
  have two : ∀ x : Char, 0x20 ≤ x.toNat ∧ x.toNat ≤ 0x7e → Ascii ['\\', x] := fun x hx => .cons (by decide) (.cons hx ascii_nil)
  unfold jsEscape
  split
  · exact two _ (by decide)
  split
  · exact two _ (by decide)
  split
  · exact two _ (by decide)
  split
  · exact two _ (by decide)
  split
  · exact two _ (by decide)
  split
  · exact two _ (by decide)
  split
  · exact two _ (by decide)
  split
  · next h => exact .cons h ascii_nil
  split
  · exact .cons (by decide) (.cons (by decide) (ascii_hex4 _))
  · exact .append (.cons (by decide) (.cons (by decide) (ascii_hex4 _))) (.cons (by decide) (.cons (by decide) (ascii_hex4 _)))

theorem ascii_string (s : String) : Ascii (jsString s) := by
  refine .cons (by decide) (.append ?_ (.cons (by decide) ascii_nil))
  intro c hc
  obtain ⟨x, _, hx⟩ := List.mem_flatMap.1 hc
  exact ascii_escape x c hx

theorem ascii_int (i : Int) : Ascii (intText i) := by
  have h : Ascii (Nat.toDigits 10 i.natAbs) := ascii_digits fun c hc => isDig_toDigits hc
  unfold intText
  split
  · exact .cons (by decide) h
  · exact h

theorem ascii_form {t : List Char} (h : FloatForm t) : Ascii t := by
  obtain ⟨neg, w, fr, ex, rfl, hneg, hw, hfr, hex, -⟩ := h
  have dig : ∀ {d : List Char}, (∀ x ∈ d, 48 ≤ x.toNat ∧ x.toNat ≤ 57) → Ascii d := by
    intro d hd x hx
    have := hd x hx
    omega
  refine .append ?_ (.append ?_ (.append ?_ ?_))
  · rcases hneg with rfl | rfl
    · exact ascii_nil
    · exact .cons (by decide) ascii_nil
  · rcases hw with rfl | ⟨c, d, rfl, _, hc, hd⟩
    · exact .cons (by decide) ascii_nil
    · exact .cons (by omega) (dig hd)
  · rcases hfr with rfl | ⟨d, rfl, _, hd⟩
    · exact ascii_nil
    · exact .cons (by decide) (dig hd)
  · rcases hex with rfl | ⟨sg, d, rfl, hs, _, hd⟩
    · exact ascii_nil
    · exact .cons (by decide) (.cons (by rcases hs with rfl | rfl <;> decide) (dig hd))

theorem ascii_float {F : FmtLib} (hF : F.Laws) {f : Nat} (h : jsFine (.float f) = true) : Ascii (jsFloat F f) := by
  obtain ⟨h1, h2⟩ := jsFine_float h
  rcases jsFloat_cases hF h1 h2 with ⟨_, e⟩ | ⟨_, e⟩ | ⟨_, e⟩ | ⟨e, h3, _⟩
  · rw [e]; unfold Ascii; decide
  · rw [e]; unfold Ascii; decide
  · rw [e]; unfold Ascii; decide
  · rw [e]; exact ascii_form h3

mutual
theorem ascii_write {F : FmtLib} (hF : F.Laws) : ∀ w : Wire, jsFine w = true → Ascii (jsWrite F w)
  | .nil, _ => by rw [jsWrite]; unfold Ascii; decide
  | .bool true, _ => by rw [jsWrite]; unfold Ascii; decide
  | .bool false, _ => by rw [jsWrite]; unfold Ascii; decide
  | .int i, _ => by rw [jsWrite]; exact ascii_int i
  | .float f, h => by rw [jsWrite]; exact ascii_float hF h
  | .str s, _ => by rw [jsWrite]; exact ascii_string s
  | .bin b, _ => by rw [jsWrite]; exact ascii_nil
  | .arr [], _ => by rw [jsWrite]; unfold Ascii; decide
  | .arr (w :: ws), h => by
    have h1 := jsFine_arr h
    simp only [jsFineL, Wire.allL, Bool.and_eq_true] at h1
    rw [jsWrite]
    exact .cons (by decide) (.append (ascii_write hF w h1.1) (ascii_writeL hF ws h1.2))
  | .map [], _ => by rw [jsWrite]; unfold Ascii; decide
  | .map ((k, w) :: ws), h => by
    obtain ⟨hk, h1⟩ := jsFine_map h
    simp only [jsFineM, Wire.allM, Bool.and_eq_true] at h1
    have a1 := ascii_write hF w h1.2.1
    have a2 := ascii_writeM hF ws h1.2.2
    obtain ⟨s, e⟩ := hk (k, w) (by simp)
    simp only at e
    subst e
    rw [jsWrite]
    exact .cons (by decide) (.append (ascii_string s) (.cons (by decide) (.cons (by decide) (.append a1 a2))))
theorem ascii_writeL {F : FmtLib} (hF : F.Laws) : ∀ l : List Wire, jsFineL l = true → Ascii (jsWriteL F l)
  | [], _ => by rw [jsWriteL]; unfold Ascii; decide
  | w :: ws, h => by
    simp only [jsFineL, Wire.allL, Bool.and_eq_true] at h
    rw [jsWriteL]
    exact .cons (by decide) (.cons (by decide) (.append (ascii_write hF w h.1) (ascii_writeL hF ws h.2)))
theorem ascii_writeM {F : FmtLib} (hF : F.Laws) : ∀ l : List (Wire × Wire), jsFineM l = true → Ascii (jsWriteM F l)
  | [], _ => by rw [jsWriteM]; unfold Ascii; decide
  | (k, w) :: ws, h => by
    simp only [jsFineM, Wire.allM, Bool.and_eq_true] at h
    have a1 := ascii_write hF w h.2.1
    have a2 := ascii_writeM hF ws h.2.2
    cases k with
    | str s =>
      rw [jsWriteM]
      exact .cons (by decide) (.cons (by decide) (.append (ascii_string s) (.cons (by decide) (.cons (by decide) (.append a1 a2)))))
    | _ => simp only [jsWriteM]; exact ascii_nil
end

theorem jsLoad_write {F : FmtLib} (hF : F.Laws) {w : Wire} (h : Ser.Writable .json w) : jsLoad F (utf8Bytes (String.ofList (jsWrite F w))) = .ok w := by
  have h1 : jsFine w = true := by rw [jsFine, all_and]; simp only [Bool.and_eq_true]; exact ⟨h.1, h.2.1⟩
  have h2 := jsRead_write hF w jsonDepth [] h1 h.2.2 (by intro c hc; simp at hc)
  have hs := jsWrite_starts hF h1
  rw [List.append_nil] at h2
  have hb : (jsWrite F w).head? ≠ some (Char.ofNat 0xfeff) := by
    intro hc
    have := ascii_write hF w h1 _ (List.mem_of_head? hc)
    revert this; decide
  simp only [jsLoad, utf8Text_bytes, String.toList_ofList, if_neg hb, hs.ws, h2]
  rfl

end Verif
