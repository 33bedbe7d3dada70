import Verif.Proof.Base64
import Verif.Props.Malformed
/-!
# C25: which texts are read as binary data

`base64.b64decode` skips what is not in the alphabet and stops at padding that completes a group. These theorems say exactly which texts stand for which bytes.
-/
namespace Verif

/-- **C25.** A text is read as the bytes `b` exactly if it is ASCII and stands for them (`B64Text`). -/
theorem C25_read (s : List Char) (b : Bytes) : b64decode s = .ok b ↔ (∀ c ∈ s, c.toNat < 128) ∧ B64Text s b := by
  unfold b64decode
  constructor
  · intro h
    split at h
    · rename_i ha; exact ⟨by simpa using ha, b64scan_iff.1 h⟩
    · cases h
  · rintro ⟨ha, h⟩
    rw [if_pos (by simpa using ha), b64scan_iff.2 h]

/-- **C25.** A text stands for at most one byte string. -/
theorem C25_one_meaning (s : List Char) (b b' : Bytes) (h : B64Text s b) (h' : B64Text s b') : b = b' := by
  have := (b64scan_iff.2 h).symm.trans (b64scan_iff.2 h')
  cases this; rfl

theorem b64scan_filter (q l p : Nat) (s : List Char) :
    b64scan q l p (s.filter fun c => c ∈ b64Letters ∨ c = '=') = b64scan q l p s := by
  induction s generalizing q l p with
  | nil => rfl
  | cons c s ih =>
    by_cases hc : c = '='
    · subst hc
      rw [List.filter_cons_of_pos (by simp), b64scan_pad, b64scan_pad, ih, ih]
    · by_cases hl : c ∈ b64Letters
      · obtain ⟨v, hv⟩ := letter_sextet hl
        rw [List.filter_cons_of_pos (by simp [hl]), b64scan_letter hv, b64scan_letter hv]
        split <;> simp only [ih]
      · rw [List.filter_cons_of_neg (by simp [hl, hc]), b64scan_skip hl hc, ih]

/-- **C25.** Characters that are neither letters nor padding make no difference: line breaks, spaces and any other ASCII character may be anywhere. -/
theorem C25_noise (s : List Char) (hs : ∀ c ∈ s, c.toNat < 128) : b64decode s = b64decode (s.filter fun c => c ∈ b64Letters ∨ c = '=') := by
  unfold b64decode
  rw [if_pos (by simpa using hs), if_pos (by simp; exact fun c hc => .inr (hs c hc)), b64scan_filter]

/-- **C25.** What follows a text is read on its own if the bytes come in threes, and not looked at otherwise. -/
theorem C25_followed (b : Bytes) (r : List Char) (hr : ∀ c ∈ r, c.toNat < 128) :
    b64decode (b64encode b ++ r) = if b.length % 3 = 0 then (b64decode r).map (b ++ ·) else .ok b := by
  have ha : ∀ x : List Char, (∀ c ∈ x, c.toNat < 128) → b64decode x = b64scan 0 0 0 x := by
    intro x hx; rw [b64decode, if_pos (by simpa using hx)]
  have hb : ∀ c ∈ b64encode b, c.toNat < 128 := by simpa using b64encode_ascii b
  rw [ha r hr, ha _ (by intro c hc; rcases List.mem_append.1 hc with h | h; exact hb c h; exact hr c h)]
  clear hr ha hb
  fun_induction b64encode b with
  | case1 => simp only [List.length_nil, Nat.zero_mod, if_true, List.nil_append]; cases b64scan 0 0 0 r <;> rfl
  | case2 a n =>
    have ha := u8_lt a
    rw [if_neg (by simp), List.cons_append, b64scan_char _ _ _ _ _ (by omega)]
    simp only
    rw [List.cons_append, b64scan_char _ _ _ _ _ (by omega)]
    simp only
    rw [List.cons_append, b64scan_pad, if_pos (by omega), if_neg (by omega), List.cons_append, b64scan_pad, if_pos (by omega), if_pos (by omega)]
    simp only [Except.map]
    rw [u8_ofNat a _ (by omega)]
  | case3 a b n =>
    have ha := u8_lt a
    have hb := u8_lt b
    rw [if_neg (by simp), List.cons_append, b64scan_char _ _ _ _ _ (by omega)]
    simp only
    rw [List.cons_append, b64scan_char _ _ _ _ _ (by omega)]
    simp only
    rw [List.cons_append, b64scan_char _ _ _ _ _ (by omega)]
    simp only
    rw [List.cons_append, b64scan_pad, if_pos (by omega), if_pos (by omega)]
    simp only [Except.map]
    rw [u8_ofNat a _ (by omega), u8_ofNat b _ (by omega)]
  | case4 a b c x n ih =>
    have ha := u8_lt a
    have hb := u8_lt b
    have hc := u8_lt c
    rw [List.cons_append, b64scan_char _ _ _ _ _ (by omega)]
    simp only
    rw [List.cons_append, b64scan_char _ _ _ _ _ (by omega)]
    simp only
    rw [List.cons_append, b64scan_char _ _ _ _ _ (by omega)]
    simp only
    rw [List.cons_append, b64scan_char _ _ _ _ _ (by omega)]
    simp only
    rw [ih]
    have e : (a :: b :: c :: x).length % 3 = x.length % 3 := by simp only [List.length_cons]; omega
    rw [e, u8_ofNat a _ (by omega), u8_ofNat b _ (by omega), u8_ofNat c _ (by omega)]
    split
    · cases b64scan 0 0 0 r <;> rfl
    · rfl

/-! ## Concrete cases -/

/-- a line break and a space inside, and text behind the padding -/
example : b64decode "QU\nJ D".toList = .ok [65, 66, 67] ∧ b64decode "QUI=QUJD".toList = .ok [65, 66] := by decide +kernel
/-- one padding too few, one letter, and an umlaut -/
example : b64decode "QU=".toList = .error (.other "binascii.Error") ∧ b64decode "Q".toList = .error (.other "binascii.Error") ∧
    b64decode "QUÄ=".toList = .error .valueError := by decide +kernel
/-- a padding between the second and third letter is skipped; bits that fit in no byte are dropped -/
example : b64decode "QU=JD".toList = .ok [65, 66, 67] ∧ b64decode "QV==".toList = .ok [65] ∧ b64decode "QQ==".toList = .ok [65] := by decide +kernel
example : b64decode (b64encode [1, 2, 3] ++ "=====".toList) = .ok [1, 2, 3] := by decide +kernel
/-- bytes under `data` are read as well, even if they are no text -/
example : (Val.bytes [81, 255, 85, 74, 68]).b64 = .ok [65, 66, 67] := by decide +kernel
/-- a shape with an open dimension -/
example : fixShape 12 [3, -1, 2] = some [3, 2, 2] ∧ fixShape 12 [5, -1] = none ∧ fixShape 12 [-1, -1] = none ∧ fixShape 0 [0, -1] = none := by decide +kernel

/-! ## Cases that meet the hypotheses -/

example := C25_noise "A Q=\n= x".toList (by decide)
example := C25_followed [1, 2] "AAAA".toList (by decide)
example := C25_followed [1, 2, 3] "AA==".toList (by decide)
/-- "A Q==": one byte. -/
theorem Ex.b64_AQ : B64Text "A Q==".toList [1] :=
  ((C25_read _ _).1 (by decide +kernel)).2
example := C25_one_meaning _ _ _ Ex.b64_AQ Ex.b64_AQ

end Verif
