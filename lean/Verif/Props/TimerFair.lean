import Verif.Props.Timer
/-!
# C50 for every fair schedule
-/
namespace Verif

/-- How far the thread is from its end at most. -/
def TimerSt.toGo (n : Int) (s : TimerSt) : Nat :=
  match s.pc with
  | .dead => 0
  | .ending => 1
  | .counting => 10 * (n - s.count).toNat + 2
  | .inside => 10 * (n - s.count).toNat + 3
  | .turn => 10 * (n - s.count).toNat + 4
  | .ready => 10 * (n - s.count).toNat + 5
  | .asleep _ => 10 * (n - s.count).toNat + 6
  | .sum => 10 * (n - s.count).toNat + 7
  | .head => 10 * (n - s.count).toNat + 8
  | .copying => 10 * (n - s.count).toNat + 9
  | .new => 10 * (n - s.count).toNat + 10

/-- Nothing but `start` takes the thread back. -/
theorem toGo_step {n : Int} {s : TimerSt} (hl : s.limit = some n) (hn : s.pc ≠ .new) {e : TimerEv} (he : e ≠ .start) :
    (s.step e).1.pc ≠ .new ∧ s.now ≤ (s.step e).1.now ∧ ((s.step e).1.pc = s.pc ∧ (s.step e).1.count = s.count ∨ (s.step e).1.toGo n < s.toGo n) ∧
    (e = .go → s.pc ≠ .dead → (∀ u, s.pc = .asleep u → u ≤ s.now) → (s.step e).1.toGo n < s.toGo n) := by
  obtain ⟨iv, lim, now, pc, running, last, count, starting, launching⟩ := s
  simp only at hl hn
  subst hl
  cases e with
  | start => exact absurd rfl he
  | tick d => refine ⟨hn, ?_, .inl ⟨rfl, rfl⟩, by simp⟩; simp only [TimerSt.step]; omega
  | stop => exact ⟨hn, Int.le_refl _, .inl ⟨rfl, rfl⟩, by simp⟩
  | check =>
    simp only [TimerSt.step]
    (repeat' split) <;> exact ⟨hn, Int.le_refl _, .inl ⟨rfl, rfl⟩, by simp⟩
  | launch =>
    simp only [TimerSt.step]
    rw [if_neg hn]
    split
    · exact ⟨hn, Int.le_refl _, .inl ⟨rfl, rfl⟩, by simp⟩
    · exact ⟨hn, Int.le_refl _, .inl ⟨rfl, rfl⟩, by simp⟩
  | fail =>
    simp only [TimerSt.step]
    split
    · rename_i h
      refine ⟨by simp, Int.le_refl _, .inr ?_, by simp⟩
      rcases h with rfl | rfl <;> simp only [TimerSt.toGo] <;> omega
    · exact ⟨hn, Int.le_refl _, .inl ⟨rfl, rfl⟩, by simp⟩
  | go =>
    cases pc with
    | new => exact absurd rfl hn
    | dead => exact ⟨hn, Int.le_refl _, .inl ⟨rfl, rfl⟩, fun _ h => absurd rfl h⟩
    | asleep u =>
      simp only [TimerSt.step, TimerSt.go]
      split
      · (refine ⟨by simp, Int.le_refl _, .inr ?_, fun _ _ _ => ?_⟩ <;> simp only [TimerSt.toGo] <;> omega)
      · rename_i h; exact ⟨by simp, Int.le_refl _, .inl ⟨rfl, rfl⟩, fun _ _ hu => absurd (hu u rfl) h⟩
    | counting =>
      simp only [TimerSt.step, TimerSt.go]
      split
      · (refine ⟨by simp, Int.le_refl _, .inr ?_, fun _ _ _ => ?_⟩ <;> simp only [TimerSt.toGo] <;> omega)
      · (refine ⟨by simp, Int.le_refl _, .inr ?_, fun _ _ _ => ?_⟩ <;> simp only [TimerSt.toGo] <;> omega)
    | _ =>
      simp only [TimerSt.step, TimerSt.go]
      first
      | (refine ⟨by simp, Int.le_refl _, .inr ?_, fun _ _ _ => ?_⟩ <;> simp only [TimerSt.toGo] <;> omega)
      | (repeat' split) <;> (refine ⟨by simp, Int.le_refl _, .inr ?_, fun _ _ _ => ?_⟩ <;> simp only [TimerSt.toGo] <;> omega)

theorem timer_now_le (s : TimerSt) (e : TimerEv) : s.now ≤ (s.step e).1.now := by
  cases e with
  | tick d => simp only [TimerSt.step]; omega
  | go => simp only [TimerSt.step, TimerSt.go]; (repeat' split) <;> exact Int.le_refl _
  | _ => simp only [TimerSt.step]; first | exact Int.le_refl _ | ((repeat' split) <;> exact Int.le_refl _)

/-- The first `n` events of a history of a timer without end. -/
def firstTimed (σ : Nat → TimerEv) (n : Nat) : List TimerEv := (List.range n).map σ

/-- **C50** In every history without end in which the thread of a timer with a limit always gets another turn and the clock passes every time: if the thread has been started and nobody calls `start` any
more, the thread finishes, and stays so. It does not matter who stops the timer, or whether the callback fails. With `C50_exactly`: if nobody does and it does not, it has called exactly as often as the limit
says. -/
theorem C50_fair (iv n now : Int) (σ : Nat → TimerEv) (k : Nat) (hp : ((TimerSt.init iv (some n) now).run (firstTimed σ k)).1.pc ≠ .new) (hs : ∀ m, k ≤ m → σ m ≠ .start)
    (hg : ∀ m, ∃ m', m ≤ m' ∧ σ m' = .go) (ht : ∀ t : Int, ∃ m, t ≤ ((TimerSt.init iv (some n) now).run (firstTimed σ m)).1.now) :
    ∃ m, ∀ m', m ≤ m' → ((TimerSt.init iv (some n) now).run (firstTimed σ m')).1.pc = .dead := by
  have hstep : ∀ m, ((TimerSt.init iv (some n) now).run (firstTimed σ (m + 1))).1 = (((TimerSt.init iv (some n) now).run (firstTimed σ m)).1.step (σ m)).1 := by
    intro m
    rw [show firstTimed σ (m + 1) = firstTimed σ m ++ [σ m] by simp [firstTimed, List.range_succ], timer_run_append]
    rfl
  have hlim : ∀ m, ((TimerSt.init iv (some n) now).run (firstTimed σ m)).1.limit = some n := fun m => (timer_params_run _ _).2
  generalize hst : (fun m => ((TimerSt.init iv (some n) now).run (firstTimed σ m)).1) = st at *
  have hst' : ∀ m, ((TimerSt.init iv (some n) now).run (firstTimed σ m)).1 = st m := fun m => congrFun hst m
  simp only [hst'] at *
  have hnew : ∀ d, (st (k + d)).pc ≠ .new := by
    intro d
    induction d with
    | zero => exact hp
    | succ d ih => rw [show k + (d + 1) = k + d + 1 from rfl, hstep]; exact (toGo_step (hlim _) ih (hs _ (by omega))).1
  have hone : ∀ m, k ≤ m → _ := fun m hm => toGo_step (hlim m) (by have := hnew (m - k); rwa [show k + (m - k) = m by omega] at this) (hs m hm)
  have hnow : ∀ m d, k ≤ m → (st m).now ≤ (st (m + d)).now := by
    intro m d hm
    induction d with
    | zero => exact Int.le_refl _
    | succ d ih => exact Int.le_trans ih (by rw [show m + (d + 1) = m + d + 1 from rfl, hstep]; exact (hone (m + d) (by omega)).2.1)
  -- it stays where it is, or comes nearer to its end
  have hold : ∀ m, k ≤ m → ∀ d, (st (m + d)).pc = (st m).pc ∧ (st (m + d)).count = (st m).count ∨ ∃ j, m ≤ j ∧ (st j).toGo n < (st m).toGo n := by
    intro m hm d
    induction d with
    | zero => exact .inl ⟨rfl, rfl⟩
    | succ d ih =>
      rcases ih with ⟨i1, i2⟩ | ih
      · have hsame : (st (m + d)).toGo n = (st m).toGo n := by simp only [TimerSt.toGo, i1, i2]
        have h3 := (hone (m + d) (by omega)).2.2.1
        rw [← hstep] at h3
        rcases h3 with ⟨a1, a2⟩ | h3
        · exact .inl ⟨a1.trans i1, a2.trans i2⟩
        · exact .inr ⟨m + d + 1, by omega, by rw [← hsame]; exact h3⟩
      · exact .inr ih
  have nearer : ∀ m, k ≤ m → (st m).pc ≠ .dead → ∃ j, m ≤ j ∧ (st j).toGo n < (st m).toGo n := by
    intro m hm hd
    have hj : ∃ j, m ≤ j ∧ σ j = .go ∧ ∀ u, (st m).pc = .asleep u → u ≤ (st j).now := by
      cases hpc : (st m).pc with
      | asleep u =>
        obtain ⟨x, hx⟩ := ht u
        rcases Nat.le_total x m with hxm | hxm
        · obtain ⟨j, j1, j2⟩ := hg (max m k)
          by_cases hkx : k ≤ x
          · exact ⟨j, by omega, j2, fun u' hu => by
              cases hu
              have := hnow x (j - x) hkx; rw [show x + (j - x) = j by omega] at this; omega⟩
          · -- the time was reached before `k`
            obtain ⟨y, hy⟩ := ht (max u ((st m).now + 1))
            obtain ⟨j, j1, j2⟩ := hg (max y m)
            by_cases hky : k ≤ y
            · exact ⟨j, by omega, j2, fun u' hu => by
                cases hu
                have := hnow y (j - y) hky; rw [show y + (j - y) = j by omega] at this; omega⟩
            · exact absurd hy (by
                have h0 : ∀ a d, (st a).now ≤ (st (a + d)).now := by
                  intro a d
                  induction d with
                  | zero => exact Int.le_refl _
                  | succ d ih => exact Int.le_trans ih (by rw [show a + (d + 1) = a + d + 1 from rfl, hstep]; exact timer_now_le _ _)
                have := h0 y (m - y)
                rw [show y + (m - y) = m by omega] at this
                omega)
        · obtain ⟨j, j1, j2⟩ := hg x
          exact ⟨j, by omega, j2, fun u' hu => by
            cases hu
            have := hnow x (j - x) (by omega); rw [show x + (j - x) = j by omega] at this; omega⟩
      | _ => obtain ⟨j, j1, j2⟩ := hg m; exact ⟨j, j1, j2, fun u hu => by cases hu⟩
    obtain ⟨j, j1, j2, j3⟩ := hj
    have := hold m hm (j - m)
    rw [show m + (j - m) = j by omega] at this
    rcases this with ⟨a1, a2⟩ | this
    · have hsame : (st j).toGo n = (st m).toGo n := by simp only [TimerSt.toGo, a1, a2]
      have h4 := (hone j (by omega)).2.2.2 j2 (by rw [a1]; exact hd) (by rw [a1]; exact j3)
      rw [← hstep, hsame] at h4
      exact ⟨j + 1, by omega, h4⟩
    · exact this
  have key : ∀ c m, k ≤ m → (st m).toGo n ≤ c → ∃ j, m ≤ j ∧ (st j).pc = .dead := by
    intro c
    induction c with
    | zero =>
      intro m hm h0
      refine ⟨m, Nat.le_refl _, Decidable.byContradiction fun hd => ?_⟩
      obtain ⟨j, _, hj⟩ := nearer m hm hd
      omega
    | succ c ih =>
      intro m hm hc
      by_cases hd : (st m).pc = .dead
      · exact ⟨m, Nat.le_refl _, hd⟩
      obtain ⟨j, j1, hj⟩ := nearer m hm hd
      obtain ⟨i, i1, hi⟩ := ih j (by omega) (by omega)
      exact ⟨i, by omega, hi⟩
  obtain ⟨m, hm, hd⟩ := key _ k (Nat.le_refl _) (Nat.le_refl _)
  refine ⟨m, fun m' hm' => ?_⟩
  have := hold m hm (m' - m)
  rw [show m + (m' - m) = m' by omega] at this
  rcases this with ⟨a1, -⟩ | ⟨j, -, hj⟩
  · exact a1.trans hd
  · simp [TimerSt.toGo, hd] at hj

namespace Ex

/-- A timer is started; then its thread and the clock have their turns one after the other. -/
def onAndOn : Nat → TimerEv
  | 0 => .start
  | 1 => .check
  | 2 => .launch
  | n => if n % 2 = 0 then .go else .tick 1

theorem onAndOn_late (n : Nat) : onAndOn (n + 3) = if (n + 3) % 2 = 0 then .go else .tick 1 := rfl

theorem onAndOn_time (iv n now t : Int) : ∃ m, t ≤ ((TimerSt.init iv (some n) now).run (firstTimed onAndOn m)).1.now := by
  have hs : ∀ m, ((TimerSt.init iv (some n) now).run (firstTimed onAndOn (m + 1))).1 = (((TimerSt.init iv (some n) now).run (firstTimed onAndOn m)).1.step (onAndOn m)).1 := by
    intro m
    rw [show firstTimed onAndOn (m + 1) = firstTimed onAndOn m ++ [onAndOn m] by simp [firstTimed, List.range_succ], timer_run_append]
    rfl
  have key : ∀ k : Nat, now + k ≤ ((TimerSt.init iv (some n) now).run (firstTimed onAndOn (2 * k + 3))).1.now := by
    intro k
    induction k with
    | zero =>
      have a0 := timer_now_le ((TimerSt.init iv (some n) now).run (firstTimed onAndOn 0)).1 (onAndOn 0)
      have a1 := timer_now_le ((TimerSt.init iv (some n) now).run (firstTimed onAndOn 1)).1 (onAndOn 1)
      have a2 := timer_now_le ((TimerSt.init iv (some n) now).run (firstTimed onAndOn 2)).1 (onAndOn 2)
      rw [← hs] at a0 a1 a2
      have : ((TimerSt.init iv (some n) now).run (firstTimed onAndOn 0)).1.now = now := rfl
      simp only [Nat.zero_add, Nat.reduceAdd, Nat.mul_zero] at *
      omega
    | succ k ih =>
      have a1 := timer_now_le ((TimerSt.init iv (some n) now).run (firstTimed onAndOn (2 * k + 4))).1 (onAndOn (2 * k + 4))
      rw [← hs] at a1
      have a0 := hs (2 * k + 3)
      rw [onAndOn_late, if_neg (by omega)] at a0
      have a2 := congrArg TimerSt.now a0
      simp only [TimerSt.step] at a2
      rw [show 2 * (k + 1) + 3 = 2 * k + 4 + 1 by omega]
      rw [show 2 * k + 3 + 1 = 2 * k + 4 by omega] at a2
      omega
  exact ⟨2 * (t - now).toNat + 3, Int.le_trans (by omega) (key (t - now).toNat)⟩

example := C50_fair 10 2 0 onAndOn 3 (by decide +kernel) (fun m hm => by obtain ⟨d, rfl⟩ := Nat.le.dest hm; rw [Nat.add_comm, onAndOn_late]; split <;> simp)
  (fun m => ⟨2 * m + 4, by omega, by rw [show 2 * m + 4 = 2 * m + 1 + 3 by omega, onAndOn_late, if_pos (by omega)]⟩) (onAndOn_time 10 2 0)
/-- It is still running after thirty events, and has finished, after two calls, after sixty. -/
example : ((TimerSt.init 10 (some 2) 0).run (firstTimed onAndOn 30)).1.pc ≠ .dead ∧ ((TimerSt.init 10 (some 2) 0).run (firstTimed onAndOn 60)).1.pc = .dead ∧
    callsOf ((TimerSt.init 10 (some 2) 0).run (firstTimed onAndOn 60)).2 = 2 := by decide +kernel

end Ex
end Verif
