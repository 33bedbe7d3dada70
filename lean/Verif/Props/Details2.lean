import Verif.Props.Requests
import Verif.Props.Process
/-!
# Details of C12, C22 and C58

Statements about single branches of the model that no theorem about whole runs pins down.
-/
namespace Verif

/-! ## C22 -/

/-- **C22** Where the platform does not pad years, a year is written as its decimal digits, without leading zeros. -/
theorem C22_year_text (n : Nat) (h : n ≤ 9999) : fmtYear false n = Nat.toDigits 10 n := by
  have hd : ∀ m, digit m = Nat.digitChar (m % 10) := by
    intro m
    have : m % 10 < 10 := Nat.mod_lt _ (by decide)
    unfold digit
    generalize m % 10 = k at this
    revert this k
    decide
  have h1 : ∀ m, m < 10 → Nat.toDigits 10 m = [digit m] := by
    intro m hm
    rw [Nat.toDigits_of_lt_base hm, hd, Nat.mod_eq_of_lt hm]
  have h2 : ∀ m, 10 ≤ m → Nat.toDigits 10 m = Nat.toDigits 10 (m / 10) ++ [digit m] := by
    intro m hm
    rw [Nat.toDigits_of_base_le (by decide) hm, hd]
  simp only [fmtYear, natDec, Bool.false_eq_true, if_false]
  by_cases a1 : n < 10
  · rw [if_pos a1, h1 _ a1]
  rw [if_neg a1, h2 n (by omega)]
  by_cases a2 : n < 100
  · rw [if_pos a2, h1 (n / 10) (by omega)]; rfl
  rw [if_neg a2, h2 (n / 10) (by omega)]
  by_cases a3 : n < 1000
  · rw [if_pos a3, h1 (n / 10 / 10) (by omega)]; rfl
  rw [if_neg a3, h2 (n / 10 / 10) (by omega)]
  rw [if_pos (by omega), h1 (n / 10 / 10 / 10) (by omega)]; rfl

example : fmtYear false 10 = ['1', '0'] ∧ fmtYear false 987 = ['9', '8', '7'] := by decide

/-! ## C12 -/

/-- **C12** A server sends by value the types it was told to, and the default ones if it was told none; this never changes. -/
theorem C12_types (addr : String) (tys : List Ty) (self : Val) (es : List Ev) :
    (tys ≠ [] → ((Srv.init addr tys self).run es).1.tys = tys) ∧ (tys = [] → ((Srv.init addr tys self).run es).1.tys = defaultTypes) := by
  rw [(run_const_srv es (Srv.init addr tys self)).1]
  cases tys with
  | nil => exact ⟨fun h => absurd rfl h, fun _ => rfl⟩
  | cons a l => exact ⟨fun _ => rfl, fun h => by cases h⟩

/-- **C12** numpy's float64 scalars count as `float`, other numpy scalars do not. -/
theorem C12_numpy_float (s : NpScalar) : (Val.npScalar s).isinstance [.float] = true ↔ s.dtype.kind = .floating ∧ s.dtype.itemsize = 8 := by
  obtain ⟨⟨nm, i, k, b⟩, v⟩ := s
  cases k <;> simp [Val.isinstance, Val.types]
  split <;> simp_all

example : (Val.npScalar ⟨⟨"float64", 8, .floating, true⟩, .float 0⟩).isinstance [.float] = true := rfl

/-! ## C58 -/

/-- **C58** A truth value given as log level is written as Python writes it. -/
theorem C58_level_bool (E : ProcEnv) (A : StartArgs) (b : Bool) (h : A.logLevel = .bool b) : ∃ t, logLevelText E A = .ok t ∧ (b = true → String.ofList t = "True") ∧ (b = false → String.ofList t = "False") := by
  cases b <;> simp [logLevelText, h]

example := C22_year_text 987 (by decide)
example (E : ProcEnv) (A : StartArgs) := C58_level_bool E { A with logLevel := .bool true } true rfl

end Verif
