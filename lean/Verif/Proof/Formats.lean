import Verif.Model.Formats
import Verif.Spec.Formats
/-!
# Proofs: the formats read what they write
-/
namespace Verif

/-! ## Text and numbers -/

theorem utf8Text_bytes (s : String) : utf8Text (utf8Bytes s) = some s := by
  have h : (utf8Bytes s).toByteArray = s.toByteArray := by
    apply ByteArray.ext
    simp [utf8Bytes]
  rw [utf8Text, h, String.fromUTF8?, dif_pos s.isValidUTF8]
  rfl

theorem utf8Bytes_length (s : String) : (utf8Bytes s).length = s.utf8ByteSize := by
  rw [utf8Bytes, Array.length_toList]; rfl

/-! ## Numbers in bytes -/

theorem bigEndian_length : ∀ k n, (bigEndian k n).length = k
  | 0, _ => rfl
  | k + 1, n => by simp [bigEndian, bigEndian_length k n]

theorem foldl_bigEndian : ∀ (k n a : Nat), (bigEndian k n).foldl (fun n x => n * 256 + x.toNat) a = a * 256 ^ k + n % 256 ^ k
  | 0, n, a => by simp [bigEndian, Nat.mod_one]
  | k + 1, n, a => by
    rw [bigEndian, List.foldl_cons, foldl_bigEndian k n, UInt8.toNat_ofNat', show (2 : Nat) ^ 8 = 256 from rfl]
    have h1 : n % 256 ^ (k + 1) = (n / 256 ^ k % 256) * 256 ^ k + n % 256 ^ k := by
      rw [Nat.pow_succ, Nat.mod_mul, Nat.mul_comm, Nat.add_comm]
    rw [h1, Nat.add_mul, Nat.mul_assoc, Nat.mul_comm 256 (256 ^ k), ← Nat.pow_succ, Nat.add_assoc]

theorem ofBigEndian_bigEndian {k n : Nat} (h : n < 256 ^ k) : ofBigEndian (bigEndian k n) = n := by
  rw [ofBigEndian, foldl_bigEndian, Nat.mod_eq_of_lt h]; simp

theorem mpTake_append (x r : Bytes) : mpTake x.length (x ++ r) = .ok (x, r) := by
  simp [mpTake]

theorem mpNum_append {α : Type} {k n : Nat} (h : n < 256 ^ k) (r : Bytes) (f : Nat → Bytes → Except Exc (α × Bytes)) :
    mpNum k (bigEndian k n ++ r) f = f n r := by
  have := mpTake_append (bigEndian k n) r
  rw [bigEndian_length] at this
  rw [mpNum, this]
  simp only [ofBigEndian_bigEndian h]

/-! ## msgpack: one item -/

theorem ofNat_toNat8 {n : Nat} (h : n < 256) : (UInt8.ofNat n).toNat = n := by
  rw [UInt8.toNat_ofNat']; exact Nat.mod_eq_of_lt h

section
variable (F : FmtLib) (arr map : Nat → Bytes → Except Exc (Wire × Bytes)) (r : Bytes)

theorem mp_d0 : mpItem F arr map (0xd0 :: r) = mpNum 1 r fun n r => .ok (.int (mpSigned 8 n), r) := rfl
theorem mp_d1 : mpItem F arr map (0xd1 :: r) = mpNum 2 r fun n r => .ok (.int (mpSigned 16 n), r) := rfl
theorem mp_d2 : mpItem F arr map (0xd2 :: r) = mpNum 4 r fun n r => .ok (.int (mpSigned 32 n), r) := rfl
theorem mp_d3 : mpItem F arr map (0xd3 :: r) = mpNum 8 r fun n r => .ok (.int (mpSigned 64 n), r) := rfl
theorem mp_cc : mpItem F arr map (0xcc :: r) = mpNum 1 r fun n r => .ok (.int n, r) := rfl
theorem mp_cd : mpItem F arr map (0xcd :: r) = mpNum 2 r fun n r => .ok (.int n, r) := rfl
theorem mp_ce : mpItem F arr map (0xce :: r) = mpNum 4 r fun n r => .ok (.int n, r) := rfl
theorem mp_cf : mpItem F arr map (0xcf :: r) = mpNum 8 r fun n r => .ok (.int n, r) := rfl
theorem mp_cb : mpItem F arr map (0xcb :: r) = mpNum 8 r fun n r => .ok (.float n, r) := rfl
theorem mp_c4 : mpItem F arr map (0xc4 :: r) = mpNum 1 r mpBin := rfl
theorem mp_c5 : mpItem F arr map (0xc5 :: r) = mpNum 2 r mpBin := rfl
theorem mp_c6 : mpItem F arr map (0xc6 :: r) = mpNum 4 r mpBin := rfl
theorem mp_d9 : mpItem F arr map (0xd9 :: r) = mpNum 1 r mpStr := rfl
theorem mp_da : mpItem F arr map (0xda :: r) = mpNum 2 r mpStr := rfl
theorem mp_db : mpItem F arr map (0xdb :: r) = mpNum 4 r mpStr := rfl
theorem mp_dc : mpItem F arr map (0xdc :: r) = mpNum 2 r arr := rfl
theorem mp_dd : mpItem F arr map (0xdd :: r) = mpNum 4 r arr := rfl
theorem mp_de : mpItem F arr map (0xde :: r) = mpNum 2 r map := rfl
theorem mp_df : mpItem F arr map (0xdf :: r) = mpNum 4 r map := rfl

theorem mpItem_fixint {n : Nat} (h : n < 128) : mpItem F arr map (UInt8.ofNat n :: r) = .ok (.int n, r) := by
  simp only [mpItem, ofNat_toNat8 (show n < 256 by omega), if_pos (show n < 0x80 from h)]

theorem mpItem_neg {n : Nat} (h1 : 224 ≤ n) (h2 : n < 256) : mpItem F arr map (UInt8.ofNat n :: r) = .ok (.int ((n : Int) - 256), r) := by
  simp only [mpItem, ofNat_toNat8 h2]
  repeat rw [if_neg (by omega)]
  rw [if_pos (by omega)]

theorem mpItem_int (i : Int) (h1 : -2 ^ 63 ≤ i) (h2 : i < 2 ^ 64) : mpItem F arr map (mpInt i ++ r) = .ok (.int i, r) := by
  have sg : ∀ (k n : Nat), n < 256 ^ k → ¬ n < 2 ^ (8 * k - 1) → (n : Int) - 2 ^ (8 * k) = i → (mpNum k (bigEndian k n ++ r) fun n r => .ok (.int (mpSigned (8 * k) n), r)) = .ok (Wire.int i, r) := by
    intro k n h1 h2 h3
    rw [mpNum_append h1, mpSigned, if_neg h2, h3]
  have us : ∀ (k n : Nat), n < 256 ^ k → (n : Int) = i → (mpNum k (bigEndian k n ++ r) fun n r => .ok (.int n, r)) = .ok (Wire.int i, r) := by
    intro k n h1 h3
    rw [mpNum_append h1, h3]
  unfold mpInt
  split
  · split
    · rw [List.cons_append, mp_d3]; exact sg 8 _ (by omega) (by omega) (by omega)
    split
    · rw [List.cons_append, mp_d2]; exact sg 4 _ (by omega) (by omega) (by omega)
    split
    · rw [List.cons_append, mp_d1]; exact sg 2 _ (by omega) (by omega) (by omega)
    · rw [List.cons_append, mp_d0]; exact sg 1 _ (by omega) (by omega) (by omega)
  split
  · rw [List.cons_append, List.nil_append, mpItem_neg F arr map r (by omega) (by omega)]
    congr 3; omega
  split
  · rw [List.cons_append, List.nil_append, mpItem_fixint F arr map r (by omega)]
    congr 3; omega
  split
  · rw [List.cons_append, mp_cc]; exact us 1 _ (by omega) (by omega)
  split
  · rw [List.cons_append, mp_cd]; exact us 2 _ (by omega) (by omega)
  split
  · rw [List.cons_append, mp_ce]; exact us 4 _ (by omega) (by omega)
  · rw [List.cons_append, mp_cf]; exact us 8 _ (by omega) (by omega)

theorem mpItem_str {n : Nat} (h : n < 2 ^ 32) : mpItem F arr map (mpStrHead n ++ r) = mpStr n r := by
  unfold mpStrHead
  split
  · rw [List.cons_append, List.nil_append]
    simp only [mpItem, ofNat_toNat8 (show 0xa0 + n < 256 by omega)]
    rw [if_neg (by omega), if_neg (by omega), if_neg (by omega), if_pos (by omega), Nat.add_sub_cancel_left]
  split
  · rw [List.cons_append, mp_d9, mpNum_append (by omega)]
  split
  · rw [List.cons_append, mp_da, mpNum_append (by omega)]
  · rw [List.cons_append, mp_db, mpNum_append (by omega)]

theorem mpItem_bin {n : Nat} (h : n < 2 ^ 32) : mpItem F arr map (mpBinHead n ++ r) = mpBin n r := by
  unfold mpBinHead
  split
  · rw [List.cons_append, mp_c4, mpNum_append (by omega)]
  split
  · rw [List.cons_append, mp_c5, mpNum_append (by omega)]
  · rw [List.cons_append, mp_c6, mpNum_append (by omega)]

theorem mpItem_arr {n : Nat} (h : n < 2 ^ 32) : mpItem F arr map (mpArrHead n ++ r) = arr n r := by
  unfold mpArrHead
  split
  · rw [List.cons_append, List.nil_append]
    simp only [mpItem, ofNat_toNat8 (show 0x90 + n < 256 by omega)]
    rw [if_neg (by omega), if_neg (by omega), if_pos (by omega), Nat.add_sub_cancel_left]
  split
  · rw [List.cons_append, mp_dc, mpNum_append (by omega)]
  · rw [List.cons_append, mp_dd, mpNum_append (by omega)]

theorem mpItem_map {n : Nat} (h : n < 2 ^ 32) : mpItem F arr map (mpMapHead n ++ r) = map n r := by
  unfold mpMapHead
  split
  · rw [List.cons_append, List.nil_append]
    simp only [mpItem, ofNat_toNat8 (show 0x80 + n < 256 by omega)]
    rw [if_neg (by omega), if_pos (by omega), Nat.add_sub_cancel_left]
  split
  · rw [List.cons_append, mp_de, mpNum_append (by omega)]
  · rw [List.cons_append, mp_df, mpNum_append (by omega)]
end

/-! ## msgpack: trees -/

theorem mpStr_append (s : String) (r : Bytes) : mpStr (utf8Bytes s).length (utf8Bytes s ++ r) = .ok (.str s, r) := by
  rw [mpStr, mpTake_append]
  simp only [utf8Text_bytes]

theorem mpBin_append (b r : Bytes) : mpBin b.length (b ++ r) = .ok (.bin b, r) := by
  rw [mpBin, mpTake_append]

/-- An item of the format, within its sizes. -/
def mpFine (w : Wire) : Bool := w.all (fun w => Ser.smallItem .msgpack w && Ser.hasItem .msgpack w)
def mpFineL (w : List Wire) : Bool := Wire.allL (fun w => Ser.smallItem .msgpack w && Ser.hasItem .msgpack w) w
def mpFineM (w : List (Wire × Wire)) : Bool := Wire.allM (fun w => Ser.smallItem .msgpack w && Ser.hasItem .msgpack w) w

mutual
theorem mpRead_write (F : FmtLib) : ∀ (w : Wire) (d : Nat) (r : Bytes), mpFine w = true → w.nesting ≤ d → mpRead F d (mpWrite w ++ r) = .ok (w, r)
  | .nil, d, r, _, _ => by cases d <;> rfl
  | .bool true, d, r, _, _ => by cases d <;> rfl
  | .bool false, d, r, _, _ => by cases d <;> rfl
  | .int i, d, r, h, _ => by
    simp only [mpFine, Wire.all, Ser.smallItem, Ser.hasItem, Bool.true_and, Bool.and_eq_true, decide_eq_true_eq] at h
    rw [mpWrite]
    cases d <;> exact mpItem_int F _ _ r i h.1 h.2
  | .float f, d, r, h, _ => by
    simp only [mpFine, Wire.all, Ser.smallItem, Ser.hasItem, Bool.and_true, decide_eq_true_eq] at h
    rw [mpWrite, List.cons_append]
    have : f < 256 ^ 8 := by omega
    cases d <;> (rw [mpRead, mp_cb, mpNum_append this])
  | .str s, d, r, h, _ => by
    simp only [mpFine, Wire.all, Ser.smallItem, Ser.hasItem, Bool.and_true, decide_eq_true_eq] at h
    rw [← utf8Bytes_length] at h
    rw [mpWrite, List.append_assoc]
    cases d <;> (rw [mpRead, mpItem_str F _ _ _ h, mpStr_append])
  | .bin b, d, r, h, _ => by
    simp only [mpFine, Wire.all, Ser.smallItem, Ser.hasItem, Bool.and_true, decide_eq_true_eq] at h
    rw [mpWrite, List.append_assoc]
    cases d <;> (rw [mpRead, mpItem_bin F _ _ _ h, mpBin_append])
  | .arr l, 0, r, _, hn => by simp [Wire.nesting] at hn
  | .arr l, d + 1, r, h, hn => by
    simp only [mpFine, Wire.all, Ser.smallItem, Ser.hasItem, Bool.and_true, Bool.and_eq_true, decide_eq_true_eq] at h
    simp only [Wire.nesting, Nat.add_le_add_iff_right] at hn
    rw [mpWrite, List.append_assoc, mpRead, mpItem_arr F _ _ _ h.1, mpRead_writeL F l d r h.2 hn]
  | .map m, 0, r, _, hn => by simp [Wire.nesting] at hn
  | .map m, d + 1, r, h, hn => by
    simp only [mpFine, Wire.all, Ser.smallItem, Ser.hasItem, Bool.and_true, Bool.and_eq_true, decide_eq_true_eq] at h
    simp only [Wire.nesting, Nat.add_le_add_iff_right] at hn
    rw [mpWrite, List.append_assoc, mpRead, mpItem_map F _ _ _ h.1, mpRead_writeM F m d r h.2 hn]

theorem mpRead_writeL (F : FmtLib) : ∀ (l : List Wire) (d : Nat) (r : Bytes), mpFineL l = true → Wire.nestingL l ≤ d →
    mpItems (mpRead F d) l.length (mpWriteL l ++ r) = .ok (l, r)
  | [], d, r, _, _ => rfl
  | w :: ws, d, r, h, hn => by
    simp only [mpFineL, Wire.allL, Bool.and_eq_true] at h
    simp only [Wire.nestingL] at hn
    rw [mpWriteL, List.append_assoc, List.length_cons, mpItems, mpRead_write F w d _ h.1 (by omega)]
    simp only [mpRead_writeL F ws d r h.2 (by omega)]

theorem mpRead_writeM (F : FmtLib) : ∀ (l : List (Wire × Wire)) (d : Nat) (r : Bytes), mpFineM l = true → Wire.nestingM l ≤ d →
    mpItems (mpPair (mpRead F d)) l.length (mpWriteM l ++ r) = .ok (l, r)
  | [], d, r, _, _ => rfl
  | (k, w) :: ws, d, r, h, hn => by
    simp only [mpFineM, Wire.allM, Bool.and_eq_true] at h
    simp only [Wire.nestingM] at hn
    rw [mpWriteM, List.append_assoc, List.append_assoc, List.length_cons, mpItems, mpPair, mpRead_write F k d _ h.1 (by omega)]
    simp only [mpRead_write F w d _ h.2.1 (by omega)]
    simp only [mpRead_writeM F ws d r h.2.2 (by omega)]
end

mutual
theorem all_and (P Q : Wire → Bool) : ∀ w : Wire, w.all (fun w => P w && Q w) = (w.all P && w.all Q)
  | .nil => rfl
  | .bool _ => rfl
  | .int _ => rfl
  | .float _ => rfl
  | .str _ => rfl
  | .bin _ => rfl
  | .arr l => by
    rw [Wire.all, Wire.all, Wire.all, allL_and P Q l]
    cases P (.arr l) <;> cases Q (.arr l) <;> simp
  | .map m => by
    rw [Wire.all, Wire.all, Wire.all, allM_and P Q m]
    cases P (.map m) <;> cases Q (.map m) <;> simp
theorem allL_and (P Q : Wire → Bool) : ∀ l : List Wire, Wire.allL (fun w => P w && Q w) l = (Wire.allL P l && Wire.allL Q l)
  | [] => rfl
  | w :: ws => by
    rw [Wire.allL, Wire.allL, Wire.allL, all_and P Q w, allL_and P Q ws]
    cases w.all P <;> cases w.all Q <;> simp
theorem allM_and (P Q : Wire → Bool) : ∀ l : List (Wire × Wire), Wire.allM (fun w => P w && Q w) l = (Wire.allM P l && Wire.allM Q l)
  | [] => rfl
  | (k, w) :: ws => by
    rw [Wire.allM, Wire.allM, Wire.allM, all_and P Q k, all_and P Q w, allM_and P Q ws]
    cases k.all P <;> cases k.all Q <;> cases w.all P <;> cases w.all Q <;> simp
end

theorem mpLoad_write (F : FmtLib) {w : Wire} (h : Ser.Writable .msgpack w) : mpLoad F (mpWrite w) = .ok w := by
  have h1 : mpFine w = true := by rw [mpFine, all_and]; simp only [Bool.and_eq_true]; exact ⟨h.1, h.2.1⟩
  have := mpRead_write F w mpStack [] h1 h.2.2
  rw [List.append_nil] at this
  rw [mpLoad, this]

end Verif
