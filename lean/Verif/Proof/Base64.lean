import Verif.Proof.Text
import Verif.Spec.Base64
/-! # Which texts are read as base64 -/
namespace Verif

theorem b64Val_sextet {c : Char} {v : Nat} : b64Val c = some v ↔ Sextet c v := by
  have h1 : ∀ n, n < 64 → b64Letters[n]? = some (b64Char n) := by decide
  have h2 : b64Letters.length = 64 := by decide
  constructor
  · intro h
    have hv : v < 64 ∧ c = b64Char v := by
      unfold b64Val at h
      have hc : ∀ n, c.toNat = n → c = Char.ofNat n := by rintro n rfl; simp
      dsimp only at h
      repeat' split at h
      · cases h; refine ⟨by omega, ?_⟩; rw [b64Char, if_pos (by omega)]; exact hc _ (by omega)
      · cases h; refine ⟨by omega, ?_⟩; rw [b64Char, if_neg (by omega), if_pos (by omega)]; exact hc _ (by omega)
      · cases h; refine ⟨by omega, ?_⟩; rw [b64Char, if_neg (by omega), if_neg (by omega), if_pos (by omega)]; exact hc _ (by omega)
      · cases h; rename_i hp; exact ⟨by omega, by rw [hp]; rfl⟩
      · cases h; rename_i hp; exact ⟨by omega, by rw [hp]; rfl⟩
      · cases h
    rw [Sextet, h1 v hv.1, hv.2]
  · intro h
    have hv : v < 64 := by
      rw [← h2]; exact (List.getElem?_eq_some_iff.1 h).1
    rw [Sextet, h1 v hv] at h
    cases h
    exact b64Val_b64Char v hv

theorem letter_sextet {c : Char} (h : c ∈ b64Letters) : ∃ v, Sextet c v := List.getElem?_of_mem h

theorem b64Val_none {c : Char} (h : c ∉ b64Letters) : b64Val c = none := by
  cases hv : b64Val c with
  | none => rfl
  | some v => exact absurd (List.mem_of_getElem? (b64Val_sextet.1 hv)) h

/-- Text is without letters, or has a first letter. -/
theorem first_letter : ∀ s : List Char, NoLetter s ∨ ∃ j c v r, s = j ++ c :: r ∧ NoLetter j ∧ Sextet c v
  | [] => .inl fun _ h => by cases h
  | c :: s => by
    by_cases hc : c ∈ b64Letters
    · obtain ⟨v, hv⟩ := letter_sextet hc
      exact .inr ⟨[], c, v, s, rfl, (fun _ h => by cases h), hv⟩
    · rcases first_letter s with h | ⟨j, x, v, r, rfl, h, hv⟩
      · exact .inl fun x hx => by cases hx with | head => exact hc | tail _ hx => exact h x hx
      · exact .inr ⟨c :: j, x, v, r, rfl, (fun x hx => by cases hx with | head => exact hc | tail _ hx => exact h x hx), hv⟩

theorem noLetter_cons {c : Char} {j : List Char} : NoLetter (c :: j) ↔ c ∉ b64Letters ∧ NoLetter j := by simp [NoLetter]

theorem b64scan_skip {c : Char} (h : c ∉ b64Letters) (hc : c ≠ '=') (q l p : Nat) (r : List Char) : b64scan q l p (c :: r) = b64scan q l p r := by
  conv => lhs; unfold b64scan
  rw [if_neg hc, b64Val_none h]

theorem b64scan_low {q : Nat} (hq : q < 2) (l p : Nat) (r : List Char) : ∀ j, NoLetter j → b64scan q l p (j ++ r) = b64scan q l p r
  | [], _ => rfl
  | c :: j, h => by
    rw [noLetter_cons] at h
    rw [List.cons_append]
    by_cases hc : c = '='
    · subst hc; rw [b64scan_pad, if_neg (by omega)]; exact b64scan_low hq l p r j h.2
    · rw [b64scan_skip h.1 hc]; exact b64scan_low hq l p r j h.2

theorem b64scan_two (l : Nat) (r : List Char) : ∀ j p, p ≤ 1 → NoLetter j →
    b64scan 2 l p (j ++ r) = if 2 ≤ p + j.count '=' then .ok [] else b64scan 2 l (p + j.count '=') r
  | [], p, hp, _ => by rw [if_neg (by simp; omega)]; simp
  | c :: j, p, hp, h => by
    rw [noLetter_cons] at h
    rw [List.cons_append]
    by_cases hc : c = '='
    · subst hc
      rw [b64scan_pad, if_pos (by omega), List.count_cons_self]
      by_cases h1 : p = 1
      · rw [if_pos (by omega), if_pos (by omega)]
      · rw [if_neg (by omega), b64scan_two l r j (p + 1) (by omega) h.2]
        have : p + 1 + j.count '=' = p + (j.count '=' + 1) := by omega
        rw [this]
    · rw [b64scan_skip h.1 hc, b64scan_two l r j p hp h.2, List.count_cons_of_ne hc]

theorem b64scan_three (l p : Nat) (r : List Char) : ∀ j, NoLetter j →
    b64scan 3 l p (j ++ r) = if '=' ∈ j then .ok [] else b64scan 3 l p r
  | [], _ => by simp
  | c :: j, h => by
    rw [noLetter_cons] at h
    rw [List.cons_append]
    by_cases hc : c = '='
    · subst hc; rw [b64scan_pad, if_pos (by omega), if_pos (by omega), if_pos (by simp)]
    · have : ('=' ∈ c :: j) ↔ '=' ∈ j := by simp [Ne.symm hc]
      rw [b64scan_skip h.1 hc, b64scan_three l p r j h.2]
      simp only [this]

theorem b64scan_letter {c : Char} {v : Nat} (h : Sextet c v) (q l p : Nat) (r : List Char) :
    b64scan q l p (c :: r) =
      match q with
      | 0 => b64scan 1 v 0 r
      | 1 => (b64scan 2 (v % 16) 0 r).map (UInt8.ofNat (l * 4 + v / 16) :: ·)
      | 2 => (b64scan 3 (v % 4) 0 r).map (UInt8.ofNat (l * 16 + v / 4) :: ·)
      | _ => (b64scan 0 0 0 r).map (UInt8.ofNat (l * 64 + v) :: ·) := b64scan_data (b64Val_sextet.2 h) q l p r

theorem b64scan_of_text {s : List Char} {b : Bytes} (h : B64Text s b) : b64scan 0 0 0 s = .ok b := by
  induction h with
  | empty h =>
    have h1 := b64scan_low (q := 0) (by omega) 0 0 [] _ h
    rw [List.append_nil] at h1
    rw [h1]; rfl
  | quad h1 hw h2 hx h3 h3' hy h4 h4' hz _ ih =>
    rw [b64scan_low (by omega) _ _ _ _ h1, b64scan_letter hw]
    simp only
    rw [b64scan_low (by omega) _ _ _ _ h2, b64scan_letter hx]
    simp only
    rw [b64scan_two _ _ _ _ (by omega) h3, if_neg (by omega), b64scan_letter hy]
    simp only
    rw [b64scan_three _ _ _ _ h4, if_neg h4', b64scan_letter hz]
    simp only
    rw [ih]; rfl
  | two h1 hw h2 hx h3 h3' =>
    rw [b64scan_low (by omega) _ _ _ _ h1, b64scan_letter hw]
    simp only
    rw [b64scan_low (by omega) _ _ _ _ h2, b64scan_letter hx]
    simp only
    rw [b64scan_two _ _ _ _ (by omega) h3, if_pos (by omega)]; rfl
  | three h1 hw h2 hx h3 h3' hy h4 h4' =>
    rw [b64scan_low (by omega) _ _ _ _ h1, b64scan_letter hw]
    simp only
    rw [b64scan_low (by omega) _ _ _ _ h2, b64scan_letter hx]
    simp only
    rw [b64scan_two _ _ _ _ (by omega) h3, if_neg (by omega), b64scan_letter hy]
    simp only
    rw [b64scan_three _ _ _ _ h4, if_pos h4']; rfl

theorem map_ok {α β : Type} {x : Except Exc α} {f : α → β} {b : β} (h : x.map f = .ok b) : ∃ a, x = .ok a ∧ b = f a := by
  cases x with
  | error e => cases h
  | ok a => cases h; exact ⟨a, rfl, rfl⟩

theorem b64scan_end {q l p : Nat} (hq : q ≠ 0) {s : List Char} (h : NoLetter s) {b : Bytes} (hb : b64scan q l p s = .ok b) :
    (q = 2 ∧ 2 ≤ p + s.count '=' ∨ 3 ≤ q ∧ '=' ∈ s ∨ 2 ≤ q ∧ 2 ≤ p + s.count '=') ∧ b = [] := by
  induction s generalizing p with
  | nil => rw [b64scan, if_neg hq] at hb; cases hb
  | cons c s ih =>
    rw [noLetter_cons] at h
    by_cases hc : c = '='
    · subst hc
      rw [b64scan_pad] at hb
      rw [List.count_cons_self]
      split at hb
      · split at hb
        · cases hb; refine ⟨?_, rfl⟩
          by_cases h3 : 3 ≤ q
          · exact .inr (.inl ⟨h3, by simp⟩)
          · exact .inl ⟨by omega, by omega⟩
        · obtain ⟨h1, h2⟩ := ih h.2 hb
          refine ⟨?_, h2⟩
          rcases h1 with h1 | h1 | h1
          · exact .inl ⟨h1.1, by omega⟩
          · exact .inr (.inl ⟨h1.1, by simp⟩)
          · exact .inr (.inr ⟨h1.1, by omega⟩)
      · obtain ⟨h1, h2⟩ := ih h.2 hb
        refine ⟨?_, h2⟩
        rcases h1 with h1 | h1 | h1 <;> exact absurd h1.1 (by omega)
    · rw [b64scan_skip h.1 hc] at hb
      obtain ⟨h1, h2⟩ := ih h.2 hb
      refine ⟨?_, h2⟩
      rw [List.count_cons_of_ne hc]
      rcases h1 with h1 | h1 | h1
      · exact .inl h1
      · exact .inr (.inl ⟨h1.1, List.mem_cons_of_mem _ h1.2⟩)
      · exact .inr (.inr h1)

theorem text_of_b64scan : ∀ (n : Nat) (s : List Char) (b : Bytes), s.length ≤ n → b64scan 0 0 0 s = .ok b → B64Text s b := by
  intro n
  induction n with
  | zero =>
    intro s b hs h
    have : s = [] := List.length_eq_zero_iff.1 (by omega)
    subst this
    cases h
    exact .empty fun _ h => by cases h
  | succ n ih =>
    intro s b hs h
    rcases first_letter s with h1 | ⟨j1, w, a, s, rfl, h1, hw⟩
    · have h2 := b64scan_low (q := 0) (by omega) 0 0 [] _ h1
      rw [List.append_nil] at h2
      rw [h2] at h
      cases h
      exact .empty h1
    rw [b64scan_low (by omega) _ _ _ _ h1, b64scan_letter hw] at h
    simp only at h
    rcases first_letter s with h2 | ⟨j2, x, b', s, rfl, h2, hx⟩
    · have := (b64scan_end (by omega) h2 h).1; omega
    rw [b64scan_low (by omega) _ _ _ _ h2, b64scan_letter hx] at h
    simp only at h
    obtain ⟨bs, h', rfl⟩ := map_ok h
    replace h := h'
    clear h'
    rcases first_letter s with h3 | ⟨j3, y, c, s, rfl, h3, hy⟩
    · obtain ⟨h4, rfl⟩ := b64scan_end (by omega) h3 h
      have := B64Text.two (r := []) h1 hw h2 hx h3 (by omega)
      rwa [List.append_nil] at this
    rw [b64scan_two _ _ _ _ (by omega) h3] at h
    split at h
    · cases h; exact .two h1 hw h2 hx h3 (by omega)
    rename_i hp
    rw [b64scan_letter hy] at h
    simp only at h
    obtain ⟨bs, h', rfl⟩ := map_ok h
    replace h := h'
    clear h'
    rcases first_letter s with h4 | ⟨j4, z, d, s, rfl, h4, hz⟩
    · obtain ⟨h5, rfl⟩ := b64scan_end (by omega) h4 h
      have h6 : '=' ∈ s := by
        rcases h5 with h5 | h5 | h5
        · omega
        · exact h5.2
        · exact List.count_pos_iff.1 (by omega)
      have := B64Text.three (r := []) h1 hw h2 hx h3 (by omega) hy h4 h6
      rwa [List.append_nil] at this
    rw [b64scan_three _ _ _ _ h4] at h
    split at h
    · cases h; exact .three h1 hw h2 hx h3 (by omega) hy h4 (by assumption)
    rename_i hp4
    rw [b64scan_letter hz] at h
    simp only at h
    obtain ⟨bs, h', rfl⟩ := map_ok h
    replace h := h'
    clear h'
    exact .quad h1 hw h2 hx h3 (by omega) hy h4 hp4 hz (ih _ _ (by simp at hs; omega) h)

theorem b64scan_iff {s : List Char} {b : Bytes} : b64scan 0 0 0 s = .ok b ↔ B64Text s b :=
  ⟨text_of_b64scan s.length s b (Nat.le_refl _), b64scan_of_text⟩

theorem b64scan_exc {q l p : Nat} {s : List Char} {e : Exc} (h : b64scan q l p s = .error e) : e = .other "binascii.Error" := by
  have hm : ∀ {x : Except Exc Bytes} {f : Bytes → Bytes}, x.map f = .error e → x = .error e := by
    intro x f h; cases x <;> cases h; rfl
  induction s generalizing q l p with
  | nil => rw [b64scan] at h; split at h <;> cases h; rfl
  | cons c s ih =>
    rw [b64scan] at h
    split at h
    · split at h
      · split at h
        · cases h
        · exact ih h
      · exact ih h
    · split at h
      · exact ih h
      · split at h
        · exact ih h
        all_goals exact ih (hm h)

end Verif
