import Verif.Proof.NdArray
import Verif.Spec.Shape
/-! # The shapes that `reshape` accepts -/
namespace Verif

/-- The entries that are given are kept. -/
def KeepsDims : List Int → List Nat → Prop
  | [], [] => True
  | k :: sh, n :: full => (0 ≤ k → n = k.toNat) ∧ KeepsDims sh full
  | _, _ => False

theorem keepsDims_iff : ∀ (sh : List Int) (full : List Nat),
    KeepsDims sh full ↔ sh.length = full.length ∧ ∀ (i : Nat) (k : Int), sh[i]? = some k → 0 ≤ k → full[i]? = some k.toNat
  | [], [] => by simp [KeepsDims]
  | [], _ :: _ => by simp [KeepsDims]
  | _ :: _, [] => by simp [KeepsDims]
  | k :: sh, n :: full => by
    rw [KeepsDims, keepsDims_iff sh full]
    constructor
    · rintro ⟨h1, h2, h3⟩
      refine ⟨by simp [h2], fun i x hx h0 => ?_⟩
      cases i with
      | zero => simp only [List.getElem?_cons_zero, Option.some.injEq] at hx ⊢; subst hx; exact h1 h0
      | succ i => simp only [List.getElem?_cons_succ] at hx ⊢; exact h3 i x hx h0
    · rintro ⟨h1, h2⟩
      refine ⟨fun h => ?_, by simpa using h1, fun i x hx h0 => ?_⟩
      · simpa using h2 0 k rfl h
      · simpa using h2 (i + 1) x (by simpa using hx) h0

/-- The shape with `x` in the place of what is left open. -/
def withDim (x : Nat) (sh : List Int) : List Nat := sh.map fun i => if i < 0 then x else i.toNat

theorem keepsDims_withDim (x : Nat) : ∀ sh, KeepsDims sh (withDim x sh)
  | [] => trivial
  | k :: sh => ⟨fun h => by simp; omega, keepsDims_withDim x sh⟩

theorem withDim_none (x : Nat) {sh : List Int} (h : (sh.filter (· < 0)).length = 0) : withDim x sh = sh.map Int.toNat := by
  have h0 : ∀ i ∈ sh, ¬ i < 0 := by
    have h1 := List.length_eq_zero_iff.1 h
    rw [List.filter_eq_nil_iff] at h1
    simpa using h1
  unfold withDim
  apply List.map_congr_left
  intro i hi
  rw [if_neg (h0 i hi)]

theorem known_none {sh : List Int} (h : (sh.filter (· < 0)).length = 0) : sh.filter (0 ≤ ·) = sh := by
  rw [List.filter_eq_self]
  have h1 := List.length_eq_zero_iff.1 h
  rw [List.filter_eq_nil_iff] at h1
  intro i hi
  have := h1 i hi
  simp at this ⊢; omega

theorem keepsDims_none : ∀ {sh : List Int} {full : List Nat}, (sh.filter (· < 0)).length = 0 → KeepsDims sh full → full = sh.map Int.toNat
  | [], [], _, _ => rfl
  | [], _ :: _, _, h => h.elim
  | _ :: _, [], _, h => h.elim
  | k :: sh, n :: full, h0, h => by
    by_cases hk : k < 0
    · simp [hk] at h0
    · rw [List.map_cons, ← keepsDims_none (by simpa [hk] using h0) h.2, h.1 (by omega)]

theorem keepsDims_one : ∀ {sh : List Int} {full : List Nat}, (sh.filter (· < 0)).length = 1 → KeepsDims sh full → ∃ x, full = withDim x sh
  | [], _, h, _ => by simp at h
  | _ :: _, [], _, h => h.elim
  | k :: sh, n :: full, h0, h => by
    by_cases hk : k < 0
    · have h1 : (sh.filter (· < 0)).length = 0 := by simpa [hk] using h0
      refine ⟨n, ?_⟩
      rw [keepsDims_none h1 h.2, ← withDim_none n h1]
      simp [withDim, hk]
    · obtain ⟨x, hx⟩ := keepsDims_one (by simpa [hk] using h0) h.2
      refine ⟨x, ?_⟩
      rw [hx, h.1 (by omega)]
      simp [withDim, hk]

theorem size_withDim (x : Nat) : ∀ {sh : List Int}, (sh.filter (· < 0)).length = 1 →
    shapeSize (withDim x sh) = shapeSize ((sh.filter (0 ≤ ·)).map Int.toNat) * x
  | [], h => by simp at h
  | k :: sh, h0 => by
    by_cases hk : k < 0
    · have h1 : (sh.filter (· < 0)).length = 0 := by simpa [hk] using h0
      have h2 : withDim x (k :: sh) = x :: withDim x sh := by simp [withDim, hk]
      rw [h2, withDim_none x h1, shapeSize_cons, List.filter_cons_of_neg (by simp; omega), known_none h1, Nat.mul_comm]
    · have h2 : withDim x (k :: sh) = k.toNat :: withDim x sh := by simp [withDim, hk]
      rw [h2, shapeSize_cons, size_withDim x (by simpa [hk] using h0), List.filter_cons_of_pos (by simp; omega), List.map_cons, shapeSize_cons, Nat.mul_assoc]

theorem known_zero : ∀ sh : List Int, shapeSize ((sh.filter (0 ≤ ·)).map Int.toNat) = 0 ↔ 0 ∈ sh
  | [] => by simp [shapeSize]
  | k :: sh => by
    by_cases hk : k < 0
    · rw [List.filter_cons_of_neg (by simp; omega), known_zero sh]
      have : (0 : Int) ≠ k := by omega
      simp [this]
    · rw [List.filter_cons_of_pos (by simp; omega), List.map_cons, shapeSize_cons, Nat.mul_eq_zero, known_zero sh]
      have : k.toNat = 0 ↔ 0 = k := by omega
      rw [this]; simp

/-- `reshape` finds the dimensions if there are some. -/
theorem fixShape_iff {n : Nat} {sh : List Int} {full : List Nat} : fixShape n sh = some full ↔ Fills sh full ∧ shapeSize full = n := by
  have hk : Fills sh full ↔ KeepsDims sh full ∧ (sh.filter (· < 0)).length ≤ 1 ∧ ((sh.filter (· < 0)).length = 1 → 0 ∉ sh) := by
    rw [keepsDims_iff]; unfold Fills; constructor
    · rintro ⟨a, b, c, d⟩; exact ⟨⟨a, b⟩, c, d⟩
    · rintro ⟨⟨a, b⟩, c, d⟩; exact ⟨a, b, c, d⟩
  rw [hk]
  unfold fixShape
  dsimp only
  split
  · rename_i h0
    rw [known_none h0]
    constructor
    · intro h
      split at h
      · rename_i h1; cases h
        exact ⟨⟨by rw [← withDim_none 0 h0]; exact keepsDims_withDim 0 sh, by omega, fun h => by omega⟩, h1⟩
      · cases h
    · rintro ⟨⟨h1, _⟩, h2⟩
      have h3 := keepsDims_none h0 h1
      rw [← h3, if_pos h2]
  · rename_i h0
    constructor
    · intro h
      split at h
      · cases h
      · rename_i h1
        simp only [Option.some.injEq] at h
        have hk0 : shapeSize ((sh.filter (0 ≤ ·)).map Int.toNat) ≠ 0 := fun hc => h1 (.inl hc)
        have hm : n % shapeSize ((sh.filter (0 ≤ ·)).map Int.toNat) = 0 := by
          apply Decidable.byContradiction; intro hc; exact h1 (.inr hc)
        have hw : full = withDim (n / shapeSize ((sh.filter (0 ≤ ·)).map Int.toNat)) sh := h.symm
        refine ⟨⟨hw ▸ keepsDims_withDim _ sh, by omega, fun _ hc => hk0 ((known_zero sh).2 hc)⟩, ?_⟩
        rw [hw, size_withDim _ h0]
        exact Nat.mul_div_cancel' (Nat.dvd_of_mod_eq_zero hm)
    · rintro ⟨⟨h1, _, h2⟩, h3⟩
      obtain ⟨x, rfl⟩ := keepsDims_one h0 h1
      rw [size_withDim _ h0] at h3
      have hk0 : shapeSize ((sh.filter (0 ≤ ·)).map Int.toNat) ≠ 0 := fun hc => h2 h0 ((known_zero sh).1 hc)
      rw [if_neg (by subst h3; simp [hk0])]
      subst h3
      rw [Nat.mul_div_cancel_left _ (by omega)]
      rfl
  · rename_i h0 h1
    constructor
    · intro h; cases h
    · rintro ⟨⟨_, h2, _⟩, _⟩
      have a0 : (sh.filter (· < 0)).length ≠ 0 := h0
      have a1 : (sh.filter (· < 0)).length ≠ 1 := h1
      omega

end Verif
