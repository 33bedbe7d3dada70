import Verif.Model.Clock
/-!
# C63: the clock offset
-/
namespace Verif

/-- Readings of the local clock and answers: all answers but the last are followed by a further local reading. The remote clock is `d` ahead, each answer is a reading of it between the
local readings before and after, and no round trip takes longer than `T`. -/
def Readings (d T : Rat) : List Rat → List Rat → Prop
  | l1 :: l2 :: ls, r :: rs => l1 ≤ r - d ∧ r - d ≤ l2 ∧ l2 - l1 ≤ T ∧ Readings d T (l2 :: ls) rs
  | [_], [_] => True
  | _, _ => False

theorem clockDifs_step (l1 l2 : Rat) (ls : List Rat) (r : Rat) (r2 : Rat) (rs : List Rat) :
    clockDifs (l1 :: l2 :: ls) (r :: r2 :: rs) = (r - (l2 + l1) * (1 / 2)) :: clockDifs (l2 :: ls) (r2 :: rs) := rfl

theorem readings_bound (d T : Rat) : ∀ ls rs, Readings d T ls rs → (clockDifs ls rs).length + 1 = ls.length ∧
    ∀ x ∈ clockDifs ls rs, d - T / 2 ≤ x ∧ x ≤ d + T / 2
  | [], _, h => by cases h
  | [_], [_], _ => ⟨rfl, by simp [clockDifs]⟩
  | [_], [], h => by cases h
  | [_], _ :: _ :: _, h => by cases h
  | _ :: _ :: _, [], h => by cases h
  | _ :: l2 :: ls, [_], h => by
    obtain ⟨-, -, -, h⟩ := h
    cases ls <;> cases h
  | l1 :: l2 :: ls, r :: r2 :: rs, ⟨h1, h2, h3, h4⟩ => by
    obtain ⟨ih1, ih2⟩ := readings_bound d T (l2 :: ls) (r2 :: rs) h4
    rw [clockDifs_step]
    refine ⟨by simpa using ih1, fun x hx => ?_⟩
    rcases List.mem_cons.1 hx with rfl | hx
    · constructor <;> grind
    · exact ih2 x hx

theorem sum_bound (lo hi : Rat) (l : List Rat) (h : ∀ x ∈ l, lo ≤ x ∧ x ≤ hi) (a : Rat) :
    a + l.length * lo ≤ l.foldl (· + ·) a ∧ l.foldl (· + ·) a ≤ a + l.length * hi := by
  induction l generalizing a with
  | nil => simp only [List.length_nil, List.foldl_nil]; constructor <;> grind
  | cons x l ih =>
    obtain ⟨h1, h2⟩ := ih (fun y hy => h y (by simp [hy])) (a + x)
    have := h x (by simp)
    have hc : (((x :: l).length : Nat) : Rat) = (l.length : Rat) + 1 := by
      rw [List.length_cons]; push_cast; rfl
    rw [hc]
    simp only [List.foldl_cons]
    constructor <;> grind

theorem div_bound {lo hi s n : Rat} (hn : 0 < n) (h1 : n * lo ≤ s) (h2 : s ≤ n * hi) : lo ≤ s / n ∧ s / n ≤ hi := by
  have hs : n * (s / n) = s := by grind
  exact ⟨Rat.le_of_mul_le_mul_left (by rwa [hs]) hn, Rat.le_of_mul_le_mul_left (by rwa [hs]) hn⟩

/-- **C63** For every offset, every number (at least two) of readings taken in order, and every bound `T` on the round trips: the estimate is within `T/2` of the offset. -/
theorem C63_bound (d T : Rat) (ls rs : List Rat) (h : Readings d T ls rs) (h2 : 2 ≤ ls.length) :
    ∃ x, clockDiff ls rs = .ok x ∧ d - T / 2 ≤ x ∧ x ≤ d + T / 2 := by
  obtain ⟨hl, hb⟩ := readings_bound d T ls rs h
  have hne : clockDifs ls rs ≠ [] := by intro he; rw [he] at hl; simp at hl; omega
  refine ⟨_, by rw [clockDiff, if_neg hne], ?_⟩
  have hpos : (0 : Rat) < (clockDifs ls rs).length := by
    have : 0 < (clockDifs ls rs).length := by omega
    exact_mod_cast this
  have hs := sum_bound _ _ _ hb 0
  exact div_bound hpos (by grind) (by grind)

/-- Answers at once and without way: the estimate is exact whatever the readings. -/
theorem C63_exact (d : Rat) (ls rs : List Rat) (h : Readings d 0 ls rs) (h2 : 2 ≤ ls.length) : clockDiff ls rs = .ok d := by
  obtain ⟨x, hx, h3, h4⟩ := C63_bound d 0 ls rs h h2
  have : x = d := by grind
  rw [hx, this]

/-- The bound cannot be improved: an answer read at the start of each round trip. -/
theorem C63_tight (d T : Rat) (hT : 0 ≤ T) : ∃ ls rs x, ls.length = 2 ∧ Readings d T ls rs ∧ clockDiff ls rs = .ok x ∧ x = d - T / 2 := by
  refine ⟨[0, T], [d, d], _, rfl, ⟨by grind, by grind, by grind, trivial⟩, rfl, ?_⟩
  show (0 + (d - (T + 0) * (1 / 2))) / ((1 : Nat) : Rat) = d - T / 2
  push_cast
  grind

/-- Three readings of a clock five seconds ahead, round trips of at most two seconds. -/
example : Readings 5 2 [0, 1, 3] [11/2, 8, 9] := by simp only [Readings]; decide +kernel
example : clockDiff [0, 1, 3] [11/2, 8, 9] = .ok (11/2) := by decide +kernel

example := C63_bound 5 2 [0, 1, 3] [11/2, 8, 9] (by simp only [Readings]; decide +kernel) (by decide)
example := C63_exact 5 [1, 1, 1] [6, 6, 9] (by simp only [Readings]; decide +kernel) (by decide)
example := C63_tight 5 2 (by decide +kernel)

end Verif
