import Verif.Spec.MsgpackBytes
import Verif.Proof.Formats
/-!
# The reader of msgpack and the table of formats
-/
namespace Verif

theorem mpVal_fold (b : Bytes) : ∀ a : Nat, b.foldl (fun n x => n * 256 + x.toNat) a = a * 256 ^ b.length + mpVal b := by
  induction b with
  | nil => intro a; simp [mpVal]
  | cons x b ih =>
    intro a
    rw [List.foldl_cons, ih, mpVal, List.length_cons, Nat.pow_succ, Nat.add_mul, Nat.mul_assoc a, Nat.mul_comm 256, Nat.add_assoc]

theorem ofBigEndian_eq (b : Bytes) : ofBigEndian b = mpVal b := by rw [ofBigEndian, mpVal_fold]; omega

theorem mpVal_lt (b : Bytes) : mpVal b < 256 ^ b.length := by
  induction b with
  | nil => simp [mpVal]
  | cons x b ih =>
    have hx := x.toNat_lt
    have : (x.toNat + 1) * 256 ^ b.length ≤ 256 * 256 ^ b.length := Nat.mul_le_mul_right _ (by omega)
    rw [Nat.add_mul] at this
    rw [mpVal, List.length_cons, Nat.pow_succ, Nat.mul_comm (256 ^ b.length)]
    omega

theorem mpTake_ok {k : Nat} {b x r : Bytes} : mpTake k b = .ok (x, r) ↔ b = x ++ r ∧ x.length = k := by
  unfold mpTake
  constructor
  · intro h
    split at h
    · cases h
    · cases h
      refine ⟨by rw [List.take_append_drop], ?_⟩
      rw [List.length_take]; omega
  · rintro ⟨rfl, rfl⟩
    exact mpTake_append x r

theorem mpNum_ok {α : Type} {k : Nat} {b : Bytes} {f : Nat → Bytes → Except Exc (α × Bytes)} {a : α} {r : Bytes} :
    mpNum k b f = .ok (a, r) ↔ ∃ x q, b = x ++ q ∧ x.length = k ∧ f (mpVal x) q = .ok (a, r) := by
  unfold mpNum
  constructor
  · intro h
    split at h
    · next x q hq =>
      rw [ofBigEndian_eq] at h
      exact ⟨x, q, (mpTake_ok.1 hq).1, (mpTake_ok.1 hq).2, h⟩
    · cases h
  · rintro ⟨x, q, hb, hx, h⟩
    rw [mpTake_ok.2 ⟨hb, hx⟩]
    simp only [ofBigEndian_eq]
    exact h

theorem utf8Text_ok {b : Bytes} {s : String} : utf8Text b = some s ↔ b = s.toUTF8.data.toList := by
  constructor
  · intro h
    unfold utf8Text String.fromUTF8? at h
    split at h
    · cases h
      show b = b.toByteArray.data.toList
      rw [List.data_toByteArray]
    · cases h
  · rintro rfl
    exact utf8Text_bytes s

theorem mpStr_ok {n : Nat} {b : Bytes} {w : Wire} {r : Bytes} : mpStr n b = .ok (w, r) ↔ ∃ s : String, b = s.toUTF8.data.toList ++ r ∧ s.toUTF8.size = n ∧ w = .str s := by
  unfold mpStr
  constructor
  · intro h
    split at h
    · next x q hq =>
      obtain ⟨rfl, rfl⟩ := mpTake_ok.1 hq
      split at h
      · next s hs =>
        cases h
        have := utf8Text_ok.1 hs
        subst this
        exact ⟨s, rfl, Array.length_toList, rfl⟩
      · cases h
    · cases h
  · rintro ⟨s, rfl, rfl, rfl⟩
    have h : mpTake s.toUTF8.size (s.toUTF8.data.toList ++ r) = .ok (s.toUTF8.data.toList, r) := mpTake_ok.2 ⟨rfl, Array.length_toList⟩
    rw [h]
    simp only [utf8Text_ok.2 rfl]

theorem mpBin_ok {n : Nat} {b : Bytes} {w : Wire} {r : Bytes} : mpBin n b = .ok (w, r) ↔ ∃ x, b = x ++ r ∧ x.length = n ∧ w = .bin x := by
  unfold mpBin
  constructor
  · intro h
    split at h
    · next x q hq =>
      cases h
      exact ⟨x, (mpTake_ok.1 hq).1, (mpTake_ok.1 hq).2, rfl⟩
    · cases h
  · rintro ⟨x, rfl, rfl, rfl⟩
    rw [mpTake_append]

theorem mpSigned_eq {k n : Nat} (hk : 0 < k) (hn : n < 256 ^ k) :
    -(2 : Int) ^ (8 * k - 1) ≤ mpSigned (8 * k) n ∧ mpSigned (8 * k) n < (2 : Int) ^ (8 * k - 1) ∧ mpSigned (8 * k) n % (256 : Int) ^ k = n := by
  have e : (2 : Nat) ^ (8 * k) = 2 * 2 ^ (8 * k - 1) := by rw [← Nat.pow_succ']; congr 1; omega
  have e2 : (256 : Nat) ^ k = 2 ^ (8 * k) := by rw [Nat.pow_mul]
  have e3 : (256 : Int) ^ k = ((2 ^ (8 * k) : Nat) : Int) := by rw [← e2]; simp
  have e4 : (2 : Int) ^ (8 * k - 1) = ((2 ^ (8 * k - 1) : Nat) : Int) := by simp
  have e5 : (2 : Int) ^ (8 * k) = ((2 ^ (8 * k) : Nat) : Int) := by simp
  rw [e2] at hn
  unfold mpSigned
  rw [e3, e4]
  split
  · next h =>
    refine ⟨by omega, by omega, ?_⟩
    rw [Int.emod_eq_of_lt (by omega) (by omega)]
  · next h =>
    rw [e5]
    refine ⟨by omega, by omega, ?_⟩
    rw [Int.sub_emod_right, Int.emod_eq_of_lt (by omega) (by omega)]

theorem mpSigned_unique {k n : Nat} {i : Int} (hk : 0 < k) (hn : n < 256 ^ k) (h1 : -(2 : Int) ^ (8 * k - 1) ≤ i) (h2 : i < (2 : Int) ^ (8 * k - 1)) (h3 : i % (256 : Int) ^ k = n) :
    mpSigned (8 * k) n = i := by
  obtain ⟨g1, g2, g3⟩ := mpSigned_eq hk hn
  have e : (2 : Nat) ^ (8 * k) = 2 * 2 ^ (8 * k - 1) := by rw [← Nat.pow_succ']; congr 1; omega
  have e2 : (256 : Nat) ^ k = 2 ^ (8 * k) := by rw [Nat.pow_mul]
  have e3 : (256 : Int) ^ k = ((2 ^ (8 * k) : Nat) : Int) := by rw [← e2]; simp
  have e4 : (2 : Int) ^ (8 * k - 1) = ((2 ^ (8 * k - 1) : Nat) : Int) := by simp
  rw [e3] at h3 g3
  rw [e4] at h1 h2 g1 g2
  have h := h3.trans g3.symm
  generalize mpSigned (8 * k) n = j at *
  have hd := Int.emod_emod_of_dvd
  have hdv : ((2 ^ (8 * k) : Nat) : Int) ∣ i - j := Int.dvd_of_emod_eq_zero (by rw [Int.sub_emod, h]; simp)
  obtain ⟨q, hq⟩ := hdv
  have hq0 : q = 0 := by
    have hlt : i - j < ((2 ^ (8 * k) : Nat) : Int) := by omega
    have hgt : -((2 ^ (8 * k) : Nat) : Int) < i - j := by omega
    have hp : (0 : Int) < ((2 ^ (8 * k) : Nat) : Int) := by have := Nat.two_pow_pos (8 * k); omega
    generalize ((2 ^ (8 * k) : Nat) : Int) = m at *
    rw [hq] at hlt hgt
    have a1 : q < 1 := by
      apply Int.lt_of_mul_lt_mul_left (a := m) _ (by omega)
      omega
    have a2 : -1 < q := by
      apply Int.lt_of_mul_lt_mul_left (a := m) _ (by omega)
      rw [Int.mul_neg, Int.mul_one]; omega
    omega
  rw [hq0] at hq
  omega

theorem ofNat_toNat_u8 (x : UInt8) : UInt8.ofNat x.toNat = x := by simp

theorem tag_eq {x y : UInt8} (h : x.toNat = y.toNat) : x = y := UInt8.toNat_inj.1 h

theorem MpTagged.intro {tags : MpTags} {t : UInt8} {b : Bytes} {k : Nat} (h : (t, k) ∈ tags) (hk : b.length = k) : MpTagged tags (t :: b) (mpVal b) := ⟨t, k, b, h, hk, rfl, rfl⟩

theorem ite_or {α : Type} {c : Prop} [Decidable c] {a b v : α} (h : (if c then a else b) = v) : (c ∧ a = v) ∨ (¬ c ∧ b = v) := by
  split at h
  · next hc => exact .inl ⟨hc, h⟩
  · next hc => exact .inr ⟨hc, h⟩

theorem mpItem_sound {F : FmtLib} {arr map : Nat → Bytes → Except Exc (Wire × Bytes)} {b : Bytes} {w : Wire} {r : Bytes} (h : mpItem F arr map b = .ok (w, r)) :
    (∃ t, b = t ++ r ∧ MpScalar F.f32 t w) ∨ (∃ h n q, b = h ++ q ∧ MpArrLen h n ∧ arr n q = .ok (w, r)) ∨ (∃ h n q, b = h ++ q ∧ MpMapLen h n ∧ map n q = .ok (w, r)) := by
  cases b with
  | nil => cases h
  | cons x b =>
    have hx := x.toNat_lt
    have hxx := ofNat_toNat_u8 x
    have num : ∀ {k : Nat} {f : Nat → Bytes → Except Exc (Wire × Bytes)}, mpNum k b f = .ok (w, r) → ∃ y q, x :: b = (x :: y) ++ q ∧ y.length = k ∧ f (mpVal y) q = .ok (w, r) := by
      intro k f hf
      obtain ⟨y, q, rfl, hy, h⟩ := mpNum_ok.1 hf
      exact ⟨y, q, rfl, hy, h⟩
    have uint : ∀ {k : Nat}, (x, k) ∈ mpUints → (mpNum k b fun n r => .ok (.int n, r)) = .ok (w, r) → ∃ t, x :: b = t ++ r ∧ MpScalar F.f32 t w := by
      intro k hk hf
      obtain ⟨y, q, e, hy, h⟩ := num hf
      cases h
      exact ⟨_, e, .uint (.intro hk hy)⟩
    have sint : ∀ {k : Nat}, (x, k) ∈ mpSints → 0 < k → (mpNum k b fun n r => .ok (.int (mpSigned (8 * k) n), r)) = .ok (w, r) → ∃ t, x :: b = t ++ r ∧ MpScalar F.f32 t w := by
      intro k hk hpos hf
      obtain ⟨y, q, e, rfl, h⟩ := num hf
      cases h
      obtain ⟨g1, g2, g3⟩ := mpSigned_eq hpos (mpVal_lt y)
      exact ⟨_, e, .sint hk g1 g2 g3⟩
    have str : ∀ {k : Nat}, (x, k) ∈ ([(0xd9, 1), (0xda, 2), (0xdb, 4)] : MpTags) → mpNum k b mpStr = .ok (w, r) → ∃ t, x :: b = t ++ r ∧ MpScalar F.f32 t w := by
      intro k hk hf
      obtain ⟨y, q, e, hy, h⟩ := num hf
      obtain ⟨s, rfl, hs, rfl⟩ := mpStr_ok.1 h
      rw [← List.append_assoc] at e
      exact ⟨_, e, .str (.inr (hs ▸ .intro hk hy))⟩
    have bin : ∀ {k : Nat}, (x, k) ∈ ([(0xc4, 1), (0xc5, 2), (0xc6, 4)] : MpTags) → mpNum k b mpBin = .ok (w, r) → ∃ t, x :: b = t ++ r ∧ MpScalar F.f32 t w := by
      intro k hk hf
      obtain ⟨y, q, e, hy, h⟩ := num hf
      obtain ⟨s, rfl, hs, rfl⟩ := mpBin_ok.1 h
      rw [← List.append_assoc] at e
      exact ⟨_, e, .bin (.inr (hs ▸ .intro hk hy))⟩
    have arr' : ∀ {k : Nat}, (x, k) ∈ ([(0xdc, 2), (0xdd, 4)] : MpTags) → mpNum k b arr = .ok (w, r) → ∃ h n q, x :: b = h ++ q ∧ MpArrLen h n ∧ arr n q = .ok (w, r) := by
      intro k hk hf
      obtain ⟨y, q, e, hy, h⟩ := num hf
      exact ⟨_, _, q, e, .inr (.intro hk hy), h⟩
    have map' : ∀ {k : Nat}, (x, k) ∈ ([(0xde, 2), (0xdf, 4)] : MpTags) → mpNum k b map = .ok (w, r) → ∃ h n q, x :: b = h ++ q ∧ MpMapLen h n ∧ map n q = .ok (w, r) := by
      intro k hk hf
      obtain ⟨y, q, e, hy, h⟩ := num hf
      exact ⟨_, _, q, e, .inr (.intro hk hy), h⟩
    rw [mpItem] at h
    rcases ite_or h with ⟨hlt, h⟩ | ⟨n1, h⟩
    · cases h
      refine .inl ⟨[x], rfl, ?_⟩
      have := MpScalar.small (f32 := F.f32) hlt
      rwa [hxx] at this
    rcases ite_or h with ⟨hx1, h⟩ | ⟨n2, h⟩
    · refine .inr (.inr ⟨[x], _, b, rfl, .inl ⟨?_, ?_⟩, h⟩)
      · omega
      · rw [show 0x80 + (x.toNat - 0x80) = x.toNat by omega, hxx]
    rcases ite_or h with ⟨hx1, h⟩ | ⟨n3, h⟩
    · refine .inr (.inl ⟨[x], _, b, rfl, .inl ⟨?_, ?_⟩, h⟩)
      · omega
      · rw [show 0x90 + (x.toNat - 0x90) = x.toNat by omega, hxx]
    rcases ite_or h with ⟨hx1, h⟩ | ⟨n4, h⟩
    · obtain ⟨s, rfl, hs, rfl⟩ := mpStr_ok.1 h
      refine .inl ⟨[x] ++ s.toUTF8.data.toList, by simp, .str (.inl ⟨?_, ?_⟩)⟩
      · omega
      · rw [hs, show 0xa0 + (x.toNat - 0xa0) = x.toNat by omega, hxx]
    rcases ite_or h with ⟨hx, h⟩ | ⟨-, h⟩
    · cases h; rw [tag_eq (y := 0xc0) hx]; exact .inl ⟨_, rfl, .nil⟩
    rcases ite_or h with ⟨hx, h⟩ | ⟨-, h⟩
    · cases h; rw [tag_eq (y := 0xc2) hx]; exact .inl ⟨_, rfl, .false⟩
    rcases ite_or h with ⟨hx, h⟩ | ⟨-, h⟩
    · cases h; rw [tag_eq (y := 0xc3) hx]; exact .inl ⟨_, rfl, .true⟩
    rcases ite_or h with ⟨hx, h⟩ | ⟨-, h⟩
    · exact .inl (bin (by rw [tag_eq (y := 0xc4) hx]; decide) h)
    rcases ite_or h with ⟨hx, h⟩ | ⟨-, h⟩
    · exact .inl (bin (by rw [tag_eq (y := 0xc5) hx]; decide) h)
    rcases ite_or h with ⟨hx, h⟩ | ⟨-, h⟩
    · exact .inl (bin (by rw [tag_eq (y := 0xc6) hx]; decide) h)
    rcases ite_or h with ⟨hx, h⟩ | ⟨-, h⟩
    · obtain ⟨y, q, e, hy, h⟩ := num h
      cases h
      rw [e, tag_eq (y := 0xca) hx]
      exact .inl ⟨_, rfl, .short hy⟩
    rcases ite_or h with ⟨hx, h⟩ | ⟨-, h⟩
    · obtain ⟨y, q, e, hy, h⟩ := num h
      cases h
      rw [e, tag_eq (y := 0xcb) hx]
      exact .inl ⟨_, rfl, .float hy⟩
    rcases ite_or h with ⟨hx, h⟩ | ⟨-, h⟩
    · exact .inl (uint (by rw [tag_eq (y := 0xcc) hx]; decide) h)
    rcases ite_or h with ⟨hx, h⟩ | ⟨-, h⟩
    · exact .inl (uint (by rw [tag_eq (y := 0xcd) hx]; decide) h)
    rcases ite_or h with ⟨hx, h⟩ | ⟨-, h⟩
    · exact .inl (uint (by rw [tag_eq (y := 0xce) hx]; decide) h)
    rcases ite_or h with ⟨hx, h⟩ | ⟨-, h⟩
    · exact .inl (uint (by rw [tag_eq (y := 0xcf) hx]; decide) h)
    rcases ite_or h with ⟨hx, h⟩ | ⟨-, h⟩
    · exact .inl (sint (k := 1) (by rw [tag_eq (y := 0xd0) hx]; decide) (by decide) h)
    rcases ite_or h with ⟨hx, h⟩ | ⟨-, h⟩
    · exact .inl (sint (k := 2) (by rw [tag_eq (y := 0xd1) hx]; decide) (by decide) h)
    rcases ite_or h with ⟨hx, h⟩ | ⟨-, h⟩
    · exact .inl (sint (k := 4) (by rw [tag_eq (y := 0xd2) hx]; decide) (by decide) h)
    rcases ite_or h with ⟨hx, h⟩ | ⟨-, h⟩
    · exact .inl (sint (k := 8) (by rw [tag_eq (y := 0xd3) hx]; decide) (by decide) h)
    rcases ite_or h with ⟨hx, h⟩ | ⟨-, h⟩
    · exact .inl (str (by rw [tag_eq (y := 0xd9) hx]; decide) h)
    rcases ite_or h with ⟨hx, h⟩ | ⟨-, h⟩
    · exact .inl (str (by rw [tag_eq (y := 0xda) hx]; decide) h)
    rcases ite_or h with ⟨hx, h⟩ | ⟨-, h⟩
    · exact .inl (str (by rw [tag_eq (y := 0xdb) hx]; decide) h)
    rcases ite_or h with ⟨hx, h⟩ | ⟨-, h⟩
    · exact .inr (.inl (arr' (by rw [tag_eq (y := 0xdc) hx]; decide) h))
    rcases ite_or h with ⟨hx, h⟩ | ⟨-, h⟩
    · exact .inr (.inl (arr' (by rw [tag_eq (y := 0xdd) hx]; decide) h))
    rcases ite_or h with ⟨hx, h⟩ | ⟨-, h⟩
    · exact .inr (.inr (map' (by rw [tag_eq (y := 0xde) hx]; decide) h))
    rcases ite_or h with ⟨hx, h⟩ | ⟨-, h⟩
    · exact .inr (.inr (map' (by rw [tag_eq (y := 0xdf) hx]; decide) h))
    rcases ite_or h with ⟨hge, h⟩ | ⟨-, h⟩
    · cases h
      refine .inl ⟨[x], rfl, ?_⟩
      have := MpScalar.negative (f32 := F.f32) (n := 256 - x.toNat) (by omega) (by omega)
      rw [show 256 - (256 - x.toNat) = x.toNat by omega, hxx, show -((256 - x.toNat : Nat) : Int) = (x.toNat : Int) - 256 by omega] at this
      exact this
    · cases h

variable {F : FmtLib} {arr map : Nat → Bytes → Except Exc (Wire × Bytes)}

theorem mp_ca {F : FmtLib} {arr map : Nat → Bytes → Except Exc (Wire × Bytes)} {r : Bytes} : mpItem F arr map (0xca :: r) = mpNum 4 r fun n r => .ok (.float (F.f32 n), r) := rfl

theorem mpItem_strLen {h : Bytes} {n : Nat} (hl : MpStrLen h n) (q : Bytes) : mpItem F arr map (h ++ q) = mpStr n q := by
  rcases hl with ⟨hn, rfl⟩ | ⟨t, k, b, hm, hk, rfl, rfl⟩
  · rw [List.singleton_append, mpItem, ofNat_toNat8 (by omega), if_neg (by omega), if_neg (by omega), if_neg (by omega), if_pos (by omega), Nat.add_sub_cancel_left]
  · simp only [List.mem_cons, Prod.mk.injEq, List.not_mem_nil, or_false] at hm
    have e := mpTake_append b q
    rw [hk] at e
    rcases hm with ⟨rfl, rfl⟩ | ⟨rfl, rfl⟩ | ⟨rfl, rfl⟩
    · rw [List.cons_append, mp_d9, mpNum, e]; simp only [ofBigEndian_eq]
    · rw [List.cons_append, mp_da, mpNum, e]; simp only [ofBigEndian_eq]
    · rw [List.cons_append, mp_db, mpNum, e]; simp only [ofBigEndian_eq]

theorem mpItem_binLen {h : Bytes} {n : Nat} (hl : MpBinLen h n) (q : Bytes) : mpItem F arr map (h ++ q) = mpBin n q := by
  rcases hl with ⟨hn, rfl⟩ | ⟨t, k, b, hm, hk, rfl, rfl⟩
  · omega
  · simp only [List.mem_cons, Prod.mk.injEq, List.not_mem_nil, or_false] at hm
    have e := mpTake_append b q
    rw [hk] at e
    rcases hm with ⟨rfl, rfl⟩ | ⟨rfl, rfl⟩ | ⟨rfl, rfl⟩
    · rw [List.cons_append, mp_c4, mpNum, e]; simp only [ofBigEndian_eq]
    · rw [List.cons_append, mp_c5, mpNum, e]; simp only [ofBigEndian_eq]
    · rw [List.cons_append, mp_c6, mpNum, e]; simp only [ofBigEndian_eq]

theorem mpItem_arrLen {h : Bytes} {n : Nat} (hl : MpArrLen h n) (q : Bytes) : mpItem F arr map (h ++ q) = arr n q := by
  rcases hl with ⟨hn, rfl⟩ | ⟨t, k, b, hm, hk, rfl, rfl⟩
  · rw [List.singleton_append, mpItem, ofNat_toNat8 (by omega), if_neg (by omega), if_neg (by omega), if_pos (by omega), Nat.add_sub_cancel_left]
  · simp only [List.mem_cons, Prod.mk.injEq, List.not_mem_nil, or_false] at hm
    have e := mpTake_append b q
    rw [hk] at e
    rcases hm with ⟨rfl, rfl⟩ | ⟨rfl, rfl⟩
    · rw [List.cons_append, mp_dc, mpNum, e]; simp only [ofBigEndian_eq]
    · rw [List.cons_append, mp_dd, mpNum, e]; simp only [ofBigEndian_eq]

theorem mpItem_mapLen {h : Bytes} {n : Nat} (hl : MpMapLen h n) (q : Bytes) : mpItem F arr map (h ++ q) = map n q := by
  rcases hl with ⟨hn, rfl⟩ | ⟨t, k, b, hm, hk, rfl, rfl⟩
  · rw [List.singleton_append, mpItem, ofNat_toNat8 (by omega), if_neg (by omega), if_pos (by omega), Nat.add_sub_cancel_left]
  · simp only [List.mem_cons, Prod.mk.injEq, List.not_mem_nil, or_false] at hm
    have e := mpTake_append b q
    rw [hk] at e
    rcases hm with ⟨rfl, rfl⟩ | ⟨rfl, rfl⟩
    · rw [List.cons_append, mp_de, mpNum, e]; simp only [ofBigEndian_eq]
    · rw [List.cons_append, mp_df, mpNum, e]; simp only [ofBigEndian_eq]

theorem mpItem_scalar {t : Bytes} {w : Wire} (h : MpScalar F.f32 t w) (r : Bytes) : mpItem F arr map (t ++ r) = .ok (w, r) := by
  cases h with
  | nil => rfl
  | false => rfl
  | true => rfl
  | small hn => exact mpItem_fixint _ _ _ _ hn
  | @negative n h1 h2 =>
    rw [List.singleton_append, mpItem_neg _ _ _ _ (by omega) (by omega)]
    rw [show ((256 - n : Nat) : Int) - 256 = -(n : Int) by omega]
  | @uint h n hl =>
    obtain ⟨t, k, b, hm, hk, rfl, rfl⟩ := hl
    simp only [mpUints, List.mem_cons, Prod.mk.injEq, List.not_mem_nil, or_false] at hm
    have e := mpTake_append b r
    rw [hk] at e
    rcases hm with ⟨rfl, rfl⟩ | ⟨rfl, rfl⟩ | ⟨rfl, rfl⟩ | ⟨rfl, rfl⟩
    · rw [List.cons_append, mp_cc, mpNum, e]; simp only [ofBigEndian_eq]
    · rw [List.cons_append, mp_cd, mpNum, e]; simp only [ofBigEndian_eq]
    · rw [List.cons_append, mp_ce, mpNum, e]; simp only [ofBigEndian_eq]
    · rw [List.cons_append, mp_cf, mpNum, e]; simp only [ofBigEndian_eq]
  | @sint t b i hm h1 h2 h3 =>
    have e := mpTake_append b r
    simp only [mpSints, List.mem_cons, Prod.mk.injEq, List.not_mem_nil, or_false] at hm
    have hpos : 0 < b.length := by omega
    have hs := mpSigned_unique hpos (mpVal_lt b) h1 h2 h3
    rcases hm with ⟨rfl, hk⟩ | ⟨rfl, hk⟩ | ⟨rfl, hk⟩ | ⟨rfl, hk⟩
    all_goals rw [hk] at e hs
    · rw [List.cons_append, mp_d0, mpNum, e]; simp only [ofBigEndian_eq]; rw [← hs]
    · rw [List.cons_append, mp_d1, mpNum, e]; simp only [ofBigEndian_eq]; rw [← hs]
    · rw [List.cons_append, mp_d2, mpNum, e]; simp only [ofBigEndian_eq]; rw [← hs]
    · rw [List.cons_append, mp_d3, mpNum, e]; simp only [ofBigEndian_eq]; rw [← hs]
  | @float b hk =>
    have e := mpTake_append b r
    rw [hk] at e
    rw [List.cons_append, mp_cb, mpNum, e]; simp only [ofBigEndian_eq]
  | @short b hk =>
    have e := mpTake_append b r
    rw [hk] at e
    rw [List.cons_append, mp_ca, mpNum, e]; simp only [ofBigEndian_eq]
  | str hl => rw [List.append_assoc, mpItem_strLen hl]; exact mpStr_ok.2 ⟨_, rfl, rfl, rfl⟩
  | bin hl => rw [List.append_assoc, mpItem_binLen hl]; exact mpBin_ok.2 ⟨_, rfl, rfl, rfl⟩

/-! ## Trees -/

theorem mpItems_ok {α : Type} {f : Bytes → Except Exc (α × Bytes)} {V : Bytes → α → Prop} (hf : ∀ b a r, f b = .ok (a, r) ↔ ∃ t, b = t ++ r ∧ V t a) :
    ∀ (n : Nat) (b : Bytes) (l : List α) (r : Bytes), mpItems f n b = .ok (l, r) ↔ ∃ u, b = u ++ r ∧ MpSeq V u l ∧ l.length = n
  | 0, b, l, r => by
    constructor
    · intro h; cases h; exact ⟨[], rfl, .nil, rfl⟩
    · rintro ⟨u, rfl, h, hl⟩
      cases h with
      | nil => rfl
      | cons _ _ => simp at hl
  | n + 1, b, l, r => by
    rw [mpItems]
    constructor
    · intro h
      split at h
      · cases h
      · next a q hq =>
        obtain ⟨t, rfl, ht⟩ := (hf _ _ _).1 hq
        split at h
        · cases h
        · next l' q' hq' =>
          cases h
          obtain ⟨u, rfl, hu, hl⟩ := (mpItems_ok hf n _ _ _).1 hq'
          exact ⟨t ++ u, by simp, .cons ht hu, by simp [hl]⟩
    · rintro ⟨u, rfl, h, hl⟩
      cases h with
      | nil => simp at hl
      | @cons t u a l ht hu =>
        rw [List.append_assoc, (hf _ _ _).2 ⟨t, rfl, ht⟩]
        simp only
        rw [(mpItems_ok hf n _ _ _).2 ⟨u, rfl, hu, by simpa using hl⟩]

theorem mpPair_ok {f : Bytes → Except Exc (Wire × Bytes)} {V : Bytes → Wire → Prop} (hf : ∀ b a r, f b = .ok (a, r) ↔ ∃ t, b = t ++ r ∧ V t a) (b : Bytes) (kv : Wire × Wire) (r : Bytes) :
    mpPair f b = .ok (kv, r) ↔ ∃ t, b = t ++ r ∧ MpPair V t kv := by
  unfold mpPair
  constructor
  · intro h
    split at h
    · cases h
    · next k q hq =>
      obtain ⟨t, rfl, ht⟩ := (hf _ _ _).1 hq
      split at h
      · cases h
      · next w q' hq' =>
        cases h
        obtain ⟨u, rfl, hu⟩ := (hf _ _ _).1 hq'
        exact ⟨t ++ u, by simp, t, u, rfl, ht, hu⟩
  · rintro ⟨_, rfl, t, u, rfl, ht, hu⟩
    rw [List.append_assoc, (hf _ _ _).2 ⟨t, rfl, ht⟩]
    simp only
    rw [(hf _ _ _).2 ⟨u, rfl, hu⟩]

/-- The reader accepts exactly the bytes of the table, and reads what they stand for. -/
theorem mpRead_iff (F : FmtLib) : ∀ (d : Nat) (b : Bytes) (w : Wire) (r : Bytes), mpRead F d b = .ok (w, r) ↔ ∃ t, b = t ++ r ∧ MpBytes F.f32 d t w
  | 0, b, w, r => by
    constructor
    · intro h
      rcases mpItem_sound h with h | ⟨_, _, _, _, _, h⟩ | ⟨_, _, _, _, _, h⟩
      · exact h
      · cases h
      · cases h
    · rintro ⟨t, rfl, h⟩
      exact mpItem_scalar h r
  | d + 1, b, w, r => by
    have ih := mpRead_iff F d
    constructor
    · intro h
      have h' := mpItem_sound h
      clear h
      rcases h' with ⟨t, e, h⟩ | ⟨h, n, q, rfl, hl, hq⟩ | ⟨h, n, q, rfl, hl, hq⟩
      · exact ⟨t, e, .inl h⟩
      · split at hq
        · next l r' he =>
          cases hq
          obtain ⟨u, rfl, hu, rfl⟩ := (mpItems_ok ih _ _ _ _).1 he
          exact ⟨h ++ u, by simp, .inr (.inl ⟨h, u, l, hl, hu, rfl, rfl⟩)⟩
        · cases hq
      · split at hq
        · next l r' he =>
          cases hq
          obtain ⟨u, rfl, hu, rfl⟩ := (mpItems_ok (mpPair_ok ih) _ _ _ _).1 he
          exact ⟨h ++ u, by simp, .inr (.inr ⟨h, u, l, hl, hu, rfl, rfl⟩)⟩
        · cases hq
    · rintro ⟨t, rfl, h | ⟨h, u, l, hl, hu, rfl, rfl⟩ | ⟨h, u, l, hl, hu, rfl, rfl⟩⟩
      · exact mpItem_scalar h r
      · rw [mpRead, List.append_assoc, mpItem_arrLen hl, (mpItems_ok ih _ _ _ _).2 ⟨u, rfl, hu, rfl⟩]
      · rw [mpRead, List.append_assoc, mpItem_mapLen hl, (mpItems_ok (mpPair_ok ih) _ _ _ _).2 ⟨u, rfl, hu, rfl⟩]

theorem mpLoad_iff (F : FmtLib) (b : Bytes) (w : Wire) : mpLoad F b = .ok w ↔ MpBytes F.f32 1024 b w := by
  have h := mpRead_iff F mpStack b
  unfold mpLoad
  constructor
  · intro hl
    split at hl
    · next w' hr =>
      cases hl
      obtain ⟨t, e, ht⟩ := (h _ _).1 hr
      rw [List.append_nil] at e
      rw [e]
      exact ht
    · cases hl
    · cases hl
  · intro hb
    rw [(h w []).2 ⟨b, by simp, hb⟩]

/-- The exceptions of the reader. -/
def MpErr (e : Exc) : Prop := e = .valueError ∨ e = .unicodeError ∨ e = .other "FormatError" ∨ e = .other "StackError"

theorem mpTake_errs {k : Nat} {b : Bytes} {e : Exc} (h : mpTake k b = .error e) : MpErr e := by
  unfold mpTake at h
  split at h
  · cases h; exact .inl rfl
  · cases h

theorem mpNum_errs {α : Type} {k : Nat} {f : Nat → Bytes → Except Exc (α × Bytes)} (hf : ∀ n b e, f n b = .error e → MpErr e) {b : Bytes} {e : Exc} (h : mpNum k b f = .error e) : MpErr e := by
  unfold mpNum at h
  split at h
  · exact hf _ _ _ h
  · next hq => cases h; exact mpTake_errs hq

theorem mpStr_errs (n : Nat) (b : Bytes) (e : Exc) (h : mpStr n b = .error e) : MpErr e := by
  unfold mpStr at h
  split at h
  · split at h
    · cases h
    · cases h; exact .inr (.inl rfl)
  · next hq => cases h; exact mpTake_errs hq

theorem mpBin_errs (n : Nat) (b : Bytes) (e : Exc) (h : mpBin n b = .error e) : MpErr e := by
  unfold mpBin at h
  split at h
  · cases h
  · next hq => cases h; exact mpTake_errs hq

set_option maxRecDepth 8000 in
theorem mpItem_errs {F : FmtLib} {arr map : Nat → Bytes → Except Exc (Wire × Bytes)} (ha : ∀ n b e, arr n b = .error e → MpErr e) (hm : ∀ n b e, map n b = .error e → MpErr e)
    {b : Bytes} {e : Exc} (h : mpItem F arr map b = .error e) : MpErr e := by
  cases b with
  | nil => cases h; exact .inl rfl
  | cons x b =>
    rw [mpItem] at h
    have no : ∀ {a : Wire × Bytes}, (.ok a : Except Exc (Wire × Bytes)) = .error e → MpErr e := by intro a h; cases h
    have no' : ∀ {f : Nat → Bytes → Wire × Bytes} (n : Nat) (b : Bytes) (e : Exc), (.ok (f n b) : Except Exc (Wire × Bytes)) = .error e → MpErr e := by intro f n b e h; cases h
    iterate 28
      rcases ite_or h with ⟨-, h⟩ | ⟨-, h⟩
      · first
        | exact mpStr_errs _ _ _ h
        | exact mpNum_errs mpBin_errs h
        | exact mpNum_errs mpStr_errs h
        | exact mpNum_errs ha h
        | exact mpNum_errs hm h
        | exact no h
        | exact mpNum_errs no' h
        | exact hm _ _ _ h
        | exact ha _ _ _ h
    cases h
    exact .inr (.inr (.inl rfl))

theorem mpItems_errs {α : Type} {f : Bytes → Except Exc (α × Bytes)} (hf : ∀ b e, f b = .error e → MpErr e) : ∀ (n : Nat) (b : Bytes) (e : Exc), mpItems f n b = .error e → MpErr e
  | 0, _, _, h => by cases h
  | n + 1, b, e, h => by
    rw [mpItems] at h
    split at h
    · next hq => cases h; exact hf _ _ hq
    · split at h
      · next hq => cases h; exact mpItems_errs hf n _ _ hq
      · cases h

theorem mpPair_errs {f : Bytes → Except Exc (Wire × Bytes)} (hf : ∀ b e, f b = .error e → MpErr e) (b : Bytes) (e : Exc) (h : mpPair f b = .error e) : MpErr e := by
  unfold mpPair at h
  split at h
  · next hq => cases h; exact hf _ _ hq
  · split at h
    · next hq => cases h; exact hf _ _ hq
    · cases h

theorem mpRead_errs (F : FmtLib) : ∀ (d : Nat) (b : Bytes) (e : Exc), mpRead F d b = .error e → MpErr e
  | 0, b, e, h => mpItem_errs (fun _ _ _ h => by cases h; exact .inr (.inr (.inr rfl))) (fun _ _ _ h => by cases h; exact .inr (.inr (.inr rfl))) h
  | d + 1, b, e, h => by
    have ih := mpRead_errs F d
    refine mpItem_errs ?_ ?_ h
    · intro n b e h
      split at h
      · cases h
      · next hq => cases h; exact mpItems_errs ih _ _ _ hq
    · intro n b e h
      split at h
      · cases h
      · next hq => cases h; exact mpItems_errs (mpPair_errs ih) _ _ _ hq

theorem mpLoad_extra (F : FmtLib) (b : Bytes) : mpLoad F b = .error (.other "ExtraData") ↔ ∃ t r w, b = t ++ r ∧ r ≠ [] ∧ MpBytes F.f32 1024 t w := by
  have h := mpRead_iff F mpStack b
  constructor
  · intro hl
    unfold mpLoad at hl
    split at hl
    · cases hl
    · next w' x r hr =>
      obtain ⟨t, e, ht⟩ := (h _ _).1 hr
      exact ⟨t, x :: r, w', e, by simp, ht⟩
    · next e he =>
      cases hl
      rcases mpRead_errs F _ _ _ he with h | h | h | h <;> exact absurd h (by simp)
  · rintro ⟨t, r, w, e, hr, ht⟩
    unfold mpLoad
    rw [(h w r).2 ⟨t, e, ht⟩]
    cases r with
    | nil => exact absurd rfl hr
    | cons _ _ => rfl

/-! ## Deep trees -/

/-- What a reader with `d` levels does with bytes of `n` levels. -/
def MpDeep (F : FmtLib) (d n : Nat) : Prop :=
  ∀ t w, MpBytes F.f32 n t w → (w.nesting ≤ d → MpBytes F.f32 d t w) ∧ (d < w.nesting → ∀ r, mpRead F d (t ++ r) = .error (.other "StackError"))

theorem mpSeq_deep {F : FmtLib} {d n : Nat} (hD : MpDeep F d n) {u : Bytes} {l : List Wire} (h : MpSeq (MpBytes F.f32 n) u l) :
    (Wire.nestingL l ≤ d → MpSeq (MpBytes F.f32 d) u l) ∧ (d < Wire.nestingL l → ∀ r, mpItems (mpRead F d) l.length (u ++ r) = .error (.other "StackError")) := by
  induction h with
  | nil => exact ⟨fun _ => .nil, fun h => by simp [Wire.nestingL] at h⟩
  | @cons t u w l ht hu ih =>
    obtain ⟨h1, h2⟩ := hD _ _ ht
    simp only [Wire.nestingL]
    refine ⟨fun h => .cons (h1 (by omega)) (ih.1 (by omega)), ?_⟩
    intro h r
    rw [List.length_cons, mpItems, List.append_assoc]
    by_cases hw : d < w.nesting
    · rw [h2 hw]
    · rw [(mpRead_iff F d _ _ _).2 ⟨t, rfl, h1 (by omega)⟩]
      simp only
      rw [ih.2 (by omega)]

theorem mpPairs_deep {F : FmtLib} {d n : Nat} (hD : MpDeep F d n) {u : Bytes} {l : List (Wire × Wire)} (h : MpSeq (MpPair (MpBytes F.f32 n)) u l) :
    (Wire.nestingM l ≤ d → MpSeq (MpPair (MpBytes F.f32 d)) u l) ∧ (d < Wire.nestingM l → ∀ r, mpItems (mpPair (mpRead F d)) l.length (u ++ r) = .error (.other "StackError")) := by
  induction h with
  | nil => exact ⟨fun _ => .nil, fun h => by simp [Wire.nestingM] at h⟩
  | @cons t u kv l ht hu ih =>
    obtain ⟨k, w⟩ := kv
    obtain ⟨a, b, rfl, ha, hb⟩ := ht
    replace ha : MpBytes F.f32 n a k := ha
    replace hb : MpBytes F.f32 n b w := hb
    obtain ⟨h1, h2⟩ := hD _ _ ha
    obtain ⟨g1, g2⟩ := hD _ _ hb
    simp only [Wire.nestingM]
    refine ⟨fun h => .cons ⟨a, b, rfl, h1 (by omega), g1 (by omega)⟩ (ih.1 (by omega)), ?_⟩
    intro h r
    rw [List.length_cons, mpItems, mpPair, List.append_assoc, List.append_assoc]
    by_cases hk : d < k.nesting
    · rw [h2 hk]
    · rw [(mpRead_iff F d _ _ _).2 ⟨a, rfl, h1 (by omega)⟩]
      simp only
      by_cases hw : d < w.nesting
      · rw [g2 hw]
      · rw [(mpRead_iff F d _ _ _).2 ⟨b, rfl, g1 (by omega)⟩]
        simp only
        rw [ih.2 (by omega)]

theorem mpScalar_nesting {f : Nat → Nat} {t : Bytes} {w : Wire} (h : MpScalar f t w) : w.nesting = 0 := by cases h <;> rfl

theorem mpScalar_bytes {f : Nat → Nat} {t : Bytes} {w : Wire} (h : MpScalar f t w) : ∀ d, MpBytes f d t w
  | 0 => h
  | _ + 1 => .inl h

theorem mpDeep (F : FmtLib) : ∀ n d, MpDeep F d n
  | 0, d => fun t w h => ⟨fun _ => mpScalar_bytes h d, fun hd => by rw [mpScalar_nesting h] at hd; omega⟩
  | n + 1, 0 => by
    intro t w h
    rcases h with h | ⟨h, u, l, hl, hu, rfl, rfl⟩ | ⟨h, u, l, hl, hu, rfl, rfl⟩
    · exact ⟨fun _ => h, fun hd => by rw [mpScalar_nesting h] at hd; omega⟩
    · refine ⟨fun h => by simp [Wire.nesting] at h, fun _ r => ?_⟩
      rw [mpRead, List.append_assoc, mpItem_arrLen hl]
    · refine ⟨fun h => by simp [Wire.nesting] at h, fun _ r => ?_⟩
      rw [mpRead, List.append_assoc, mpItem_mapLen hl]
  | n + 1, d + 1 => by
    have hD := mpDeep F n d
    intro t w h
    rcases h with h | ⟨h, u, l, hl, hu, rfl, rfl⟩ | ⟨h, u, l, hl, hu, rfl, rfl⟩
    · exact ⟨fun _ => .inl h, fun hd => by rw [mpScalar_nesting h] at hd; omega⟩
    · obtain ⟨h1, h2⟩ := mpSeq_deep hD hu
      simp only [Wire.nesting]
      refine ⟨fun g => .inr (.inl ⟨h, u, l, hl, h1 (by omega), rfl, rfl⟩), fun g r => ?_⟩
      rw [mpRead, List.append_assoc, mpItem_arrLen hl, h2 (by omega)]
    · obtain ⟨h1, h2⟩ := mpPairs_deep hD hu
      simp only [Wire.nesting]
      refine ⟨fun g => .inr (.inr ⟨h, u, l, hl, h1 (by omega), rfl, rfl⟩), fun g r => ?_⟩
      rw [mpRead, List.append_assoc, mpItem_mapLen hl, h2 (by omega)]

end Verif
