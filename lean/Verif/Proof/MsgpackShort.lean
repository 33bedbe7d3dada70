import Verif.Proof.MsgpackGrammar
/-!
# The packer writes as little as the format allows
-/
namespace Verif

theorem mpInt_short {i : Int} {k : Nat} (hk : k = 1 ∨ k = 2 ∨ k = 4 ∨ k = 8) (h1 : -(2 : Int) ^ (8 * k - 1) ≤ i) (h2 : i < (256 : Int) ^ k) : (mpInt i).length ≤ k + 1 := by
  unfold mpInt
  rcases hk with rfl | rfl | rfl | rfl
  all_goals
    simp only [Nat.reduceMul, Nat.reduceSub, Int.reducePow, Int.reduceNeg] at h1 h2 ⊢
    repeat' split
    all_goals simp only [List.length_cons, List.length_nil, bigEndian_length]; omega

theorem mpStrHead_length (n : Nat) : (mpStrHead n).length = if n < 32 then 1 else if n < 256 then 2 else if n < 65536 then 3 else 5 := by
  unfold mpStrHead
  repeat' split
  all_goals simp only [List.length_cons, List.length_nil, bigEndian_length]
  all_goals omega

theorem mpBinHead_length (n : Nat) : (mpBinHead n).length = if n < 256 then 2 else if n < 65536 then 3 else 5 := by
  unfold mpBinHead
  repeat' split
  all_goals simp only [List.length_cons, List.length_nil, bigEndian_length]
  all_goals omega

theorem mpArrHead_length (n : Nat) : (mpArrHead n).length = if n < 16 then 1 else if n < 65536 then 3 else 5 := by
  unfold mpArrHead
  repeat' split
  all_goals simp only [List.length_cons, List.length_nil, bigEndian_length]
  all_goals omega

theorem mpMapHead_length (n : Nat) : (mpMapHead n).length = if n < 16 then 1 else if n < 65536 then 3 else 5 := by
  unfold mpMapHead
  repeat' split
  all_goals simp only [List.length_cons, List.length_nil, bigEndian_length]
  all_goals omega

theorem MpTagged.length {tags : MpTags} {h : Bytes} {n : Nat} (H : MpTagged tags h n) : ∃ t k, (t, k) ∈ tags ∧ h.length = k + 1 ∧ n < 256 ^ k := by
  obtain ⟨t, k, b, hm, rfl, rfl, rfl⟩ := H
  exact ⟨t, _, hm, rfl, mpVal_lt b⟩

theorem mpScalar_short {f : Nat → Nat} {t : Bytes} {w : Wire} (h : MpScalar f t w) (hw : w.noFloat = true) : (mpWrite w).length ≤ t.length := by
  cases h with
  | nil => exact Nat.le_refl _
  | false => exact Nat.le_refl _
  | true => exact Nat.le_refl _
  | @small n hn =>
    rw [mpWrite, mpInt, if_neg (by omega), if_neg (by omega), if_pos (by omega)]
    exact Nat.le_refl _
  | @negative n h1 h2 =>
    rw [mpWrite, mpInt, if_neg (by omega), if_pos (by omega)]
    exact Nat.le_refl _
  | @uint h n hl =>
    obtain ⟨t, k, hm, hk, hn⟩ := hl.length
    simp only [mpUints, List.mem_cons, Prod.mk.injEq, List.not_mem_nil, or_false] at hm
    have hk' : k = 1 ∨ k = 2 ∨ k = 4 ∨ k = 8 := by omega
    rw [mpWrite, hk]
    apply mpInt_short hk'
    · have : (0 : Int) ≤ 2 ^ (8 * k - 1) := Int.le_of_lt (Int.pow_pos (by decide))
      omega
    · have e : (256 : Int) ^ k = ((256 ^ k : Nat) : Int) := by simp
      omega
  | @sint t b i hm h1 h2 h3 =>
    simp only [mpSints, List.mem_cons, Prod.mk.injEq, List.not_mem_nil, or_false] at hm
    have hk' : b.length = 1 ∨ b.length = 2 ∨ b.length = 4 ∨ b.length = 8 := by omega
    rw [mpWrite, List.length_cons]
    apply mpInt_short hk' h1
    refine Int.lt_of_lt_of_le h2 ?_
    have e : (256 : Int) ^ b.length = ((2 ^ (8 * b.length) : Nat) : Int) := by rw [Nat.pow_mul]; simp
    have e2 : (2 : Int) ^ (8 * b.length - 1) = ((2 ^ (8 * b.length - 1) : Nat) : Int) := by simp
    rw [e, e2]
    exact Int.ofNat_le.2 (Nat.pow_le_pow_right (by decide) (by omega))
  | float _ => cases hw
  | short _ => cases hw
  | @str h s hl =>
    have hs : (utf8Bytes s).length = s.toUTF8.size := Array.length_toList
    show (mpStrHead (utf8Bytes s).length ++ utf8Bytes s).length ≤ (h ++ utf8Bytes s).length
    rw [List.length_append, List.length_append, mpStrHead_length, hs]
    generalize s.toUTF8.size = n at *
    rcases hl with ⟨hn, rfl⟩ | hl
    · rw [if_pos hn]; simp
    · obtain ⟨t, k, hm, hk, hn⟩ := hl.length
      simp only [List.mem_cons, Prod.mk.injEq, List.not_mem_nil, or_false] at hm
      rw [hk]
      rcases hm with ⟨-, rfl⟩ | ⟨-, rfl⟩ | ⟨-, rfl⟩ <;> (repeat' split) <;> omega
  | @bin h b hl =>
    rw [mpWrite, List.length_append, List.length_append, mpBinHead_length]
    generalize b.length = n at *
    rcases hl with ⟨hn, rfl⟩ | hl
    · omega
    · obtain ⟨t, k, hm, hk, hn⟩ := hl.length
      simp only [List.mem_cons, Prod.mk.injEq, List.not_mem_nil, or_false] at hm
      rw [hk]
      rcases hm with ⟨-, rfl⟩ | ⟨-, rfl⟩ | ⟨-, rfl⟩ <;> (repeat' split) <;> omega

theorem mpArrHead_short {h : Bytes} {n : Nat} (hl : MpArrLen h n) : (mpArrHead n).length ≤ h.length := by
  rw [mpArrHead_length]
  rcases hl with ⟨hn, rfl⟩ | hl
  · rw [if_pos hn]; simp
  · obtain ⟨t, k, hm, hk, hn⟩ := hl.length
    simp only [List.mem_cons, Prod.mk.injEq, List.not_mem_nil, or_false] at hm
    rw [hk]
    rcases hm with ⟨-, rfl⟩ | ⟨-, rfl⟩ <;> (repeat' split) <;> omega

theorem mpMapHead_short {h : Bytes} {n : Nat} (hl : MpMapLen h n) : (mpMapHead n).length ≤ h.length := by
  rw [mpMapHead_length]
  rcases hl with ⟨hn, rfl⟩ | hl
  · rw [if_pos hn]; simp
  · obtain ⟨t, k, hm, hk, hn⟩ := hl.length
    simp only [List.mem_cons, Prod.mk.injEq, List.not_mem_nil, or_false] at hm
    rw [hk]
    rcases hm with ⟨-, rfl⟩ | ⟨-, rfl⟩ <;> (repeat' split) <;> omega

/-- no bytes that stand for the same tree are fewer -/
theorem mpWrite_short {f : Nat → Nat} : ∀ (d : Nat) (t : Bytes) (w : Wire), MpBytes f d t w → w.noFloat = true → (mpWrite w).length ≤ t.length
  | 0, t, w, h, hw => mpScalar_short h hw
  | d + 1, t, w, h, hw => by
    have ih := mpWrite_short (f := f) d
    rcases h with h | ⟨h, u, l, hl, hu, rfl, rfl⟩ | ⟨h, u, l, hl, hu, rfl, rfl⟩
    · exact mpScalar_short h hw
    · have hL : ∀ {u : Bytes} {l : List Wire}, MpSeq (MpBytes f d) u l → Wire.allL (fun w => match w with | .float _ => false | _ => true) l = true → (mpWriteL l).length ≤ u.length := by
        intro u l hu
        induction hu with
        | nil => intro _; simp [mpWriteL]
        | cons ht hu ih2 =>
          intro ha
          rw [Wire.allL, Bool.and_eq_true] at ha
          have := ih _ _ ht ha.1
          have := ih2 ha.2
          rw [mpWriteL, List.length_append, List.length_append]; omega
      rw [Wire.noFloat, Wire.all, Bool.and_eq_true] at hw
      have h1 := hL hu hw.2
      have h2 := mpArrHead_short hl
      rw [mpWrite, List.length_append, List.length_append]; omega
    · have hL : ∀ {u : Bytes} {l : List (Wire × Wire)}, MpSeq (MpPair (MpBytes f d)) u l → Wire.allM (fun w => match w with | .float _ => false | _ => true) l = true →
          (mpWriteM l).length ≤ u.length := by
        intro u l hu
        induction hu with
        | nil => intro _; simp [mpWriteM]
        | @cons t u kv l ht hu ih2 =>
          intro ha
          obtain ⟨k, w⟩ := kv
          obtain ⟨a, b, rfl, h1, h2⟩ := ht
          rw [Wire.allM, Bool.and_eq_true, Bool.and_eq_true] at ha
          have := ih _ _ h1 ha.1
          have := ih _ _ h2 ha.2.1
          have := ih2 ha.2.2
          simp only [mpWriteM, List.length_append] at *; omega
      rw [Wire.noFloat, Wire.all, Bool.and_eq_true] at hw
      have h1 := hL hu hw.2
      have h2 := mpMapHead_short hl
      rw [mpWrite, List.length_append, List.length_append]; omega

end Verif
