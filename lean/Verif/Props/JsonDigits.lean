import Verif.Proof.JsonDigits
import Verif.Props.Serializer
/-!
# C135: integers of any size survive JSON (expected)

Python converts no integer of more than 4300 digits to or from text, so the JSON serializer refuses it. `lim` is the limit of a process.
-/
namespace Verif
open Ex

/-- **C135** (the expectation fails) An integer with more digits than the limit is refused with `ValueError`, alone, in a list, as a value or as a key. -/
theorem C135_fails (lim : Nat) (E : SendEnv) (t : Refs) {i : Int} (h : 10 ^ lim ≤ i.natAbs) (v : Val) (d : List (Val × Val)) :
    jsonDumpsLim lim E t (.int i) = (t, .error .valueError) ∧ jsonDumpsLim lim E t (.list [.int i]) = (t, .error .valueError) ∧
      jsonDumpsLim lim E t (.dict ((.int i, v) :: d)) = (t, .error .valueError) := by
  have hl : tooLong lim i = true := by simp [tooLong, h]
  have : ∀ n, jpackLim lim E (n + 2) t (.int i) = (t, .error .valueError) ∧ jpackLim lim E (n + 2) t (.list [.int i]) = (t, .error .valueError) ∧
      jpackLim lim E (n + 2) t (.dict ((.int i, v) :: d)) = (t, .error .valueError) := by
    intro n
    refine ⟨?_, ?_, ?_⟩
    · simp only [jpackLim, Val.core, hl, if_true]
    · simp only [jpackLim, Val.core, mapS, hl, if_true]
    · simp only [jpackLim, Val.core, mapS, jpairLim, jkeyLim, hl, if_true]
  exact this 998

/-- **C135** A value that could be written without the limit is written to the same message if there is no longer integer in the message and none among the keys of its dictionaries;
otherwise it is refused with `ValueError`. -/
theorem C135_written_partial (lim : Nat) {E : SendEnv} {t t' : Refs} {v : Val} {w : Wire} (h : jsonDumps E t v = (t', .ok w)) :
    ((w.all (shortItem lim) = true ∧ v.longKey lim = false) → jsonDumpsLim lim E t v = (t', .ok w)) ∧
    (¬ (w.all (shortItem lim) = true ∧ v.longKey lim = false) → (jsonDumpsLim lim E t v).2 = .error .valueError) := by
  have hl := jpack_limits lim E jsonDepth t v
  refine ⟨fun ⟨h1, h2⟩ => hl.same _ _ h (by rw [fineFor, h1, h2]; rfl), fun hn => hl.long _ _ h ?_⟩
  rw [fineFor]
  cases h1 : w.all (shortItem lim) <;> cases h2 : v.longKey lim <;> simp_all

/-- **C135** The limit makes nothing succeed that would fail without it, and messages written have no integers that are too long. -/
theorem C135_only {lim : Nat} {E : SendEnv} {t t' : Refs} {v : Val} {w : Wire} (h : jsonDumpsLim lim E t v = (t', .ok w)) :
    jsonDumps E t v = (t', .ok w) ∧ w.all (shortItem lim) = true ∧ v.longKey lim = false := by
  rcases hj : jsonDumps E t v with ⟨t1, r⟩
  have hl := jpack_limits lim E jsonDepth t v
  cases r with
  | error e =>
    rcases hl.fail _ _ hj with h1 | h1
    · rw [show jpackLim lim E jsonDepth t v = _ from h] at h1; simp at h1
    · rw [show jpackLim lim E jsonDepth t v = _ from h] at h1; simp at h1
  | ok w' =>
    have hw := C135_written_partial lim hj
    by_cases hc : w'.all (shortItem lim) = true ∧ v.longKey lim = false
    · have := hw.1 hc
      rw [h] at this
      simp only [Prod.mk.injEq, Except.ok.injEq] at this
      obtain ⟨rfl, rfl⟩ := this
      exact ⟨rfl, hc⟩
    · have := hw.2 hc
      rw [h] at this; simp at this

/-- **C135** A reader with a limit reads a message without longer integers as one without a limit does, and refuses any other with `ValueError` unless something else is wrong with it. -/
theorem C135_read (lim : Nat) (R : RecvEnv) (w : Wire) :
    (w.all (shortItem lim) = true → jsonLoadsLim lim R w = jsonLoads R w) ∧
    (w.all (shortItem lim) = false → jsonLoadsLim lim R w = .error .valueError ∨ ∃ e, jsonLoads R w = .error e ∧ jsonLoadsLim lim R w = .error e) := by
  have hl := junpack_lim lim R w
  refine ⟨hl.same, fun h => ?_⟩
  cases hr : jsonLoads R w with
  | ok v => exact Or.inl (hl.long h v hr)
  | error e =>
    rcases hl.fail e hr with h1 | h1
    · exact Or.inr ⟨e, rfl, h1⟩
    · exact Or.inl h1

/-- **C135** What one process could write, every process whose limit is no lower reads as C18 says. -/
theorem C135_transport_partial {L E R h t} (hl : Link L E R) (hr : Reach E.idOf h t) (ha : Alive E h) {v t' w} {lim lim' : Nat} (hle : lim ≤ lim')
    (hs : JSendable R v) (hd : jsonDumpsLim lim E t v = (t', .ok w)) :
    ∃ v', jsonLoadsLim lim' R w = .ok v' ∧ JArrives L E.tys (ByProxy E R t') v v' := by
  obtain ⟨h1, h2, _⟩ := C135_only hd
  obtain ⟨v', h3, h4⟩ := C18_json_transport hl hr ha hs h1
  refine ⟨v', ?_, h4⟩
  rw [(C135_read lim' R w).1 (shortItem_mono hle w h2)]
  exact h3

/-- **C135** (the expectation fails) A process with a lower limit, or an older Python with none, sends what its reader refuses. -/
theorem C135_fails_between (lim : Nat) (E : SendEnv) (R : RecvEnv) (t : Refs) :
    ∃ i, jsonDumps E t (.int i) = (t, .ok (.int i)) ∧ jsonDumpsLim (lim + 1) E t (.int i) = (t, .ok (.int i)) ∧ jsonLoadsLim lim R (.int i) = .error .valueError := by
  have hi : ((10 ^ lim : Nat) : Int).natAbs = 10 ^ lim := Int.natAbs_natCast _
  have hs : ∀ n, jpack E (n + 1) t (.int ((10 ^ lim : Nat) : Int)) = (t, .ok (.int ((10 ^ lim : Nat) : Int))) := fun n => by simp only [jpack, Val.core]
  refine ⟨((10 ^ lim : Nat) : Int), hs _, ?_, ?_⟩
  · refine (C135_written_partial (lim + 1) (hs _)).1 ⟨?_, rfl⟩
    simp only [Wire.all, shortItem, hi, decide_eq_true_eq]
    exact Nat.pow_lt_pow_right (by decide) (Nat.lt_succ_self _)
  · simp only [jsonLoadsLim, junpackLim, tooLong, hi, Nat.le_refl, decide_true, if_true]

/-! ## The hypotheses can be met -/

theorem Ex.long_int : (10 : Nat) ^ strDigits ≤ ((10 : Int) ^ 4300).natAbs := by decide +kernel
theorem Ex.short_int : ((10 : Int) ^ 4300 - 1).natAbs < 10 ^ strDigits := by decide +kernel

/-- An integer of 4301 digits is refused, also as a key. -/
example (t : Refs) := C135_fails strDigits sendA t Ex.long_int .none [(.str "x", .none)]
/-- The largest integer of 4300 digits is written. -/
example (t : Refs) : jsonDumpsLim strDigits sendA t (.int (10 ^ 4300 - 1)) = (t, .ok (.int (10 ^ 4300 - 1))) := by
  have hs : ∀ n i, jpack sendA (n + 1) t (.int i) = (t, .ok (.int i)) := fun n i => by simp only [jpack, Val.core]
  refine (C135_written_partial strDigits (hs 999 _)).1 ⟨?_, rfl⟩
  simp only [Wire.all, shortItem, decide_eq_true_eq]
  exact Ex.short_int

/-- The example of C18, whose largest integer has 22 digits. -/
theorem Ex.exJVal_lim : ∃ t' w, jsonDumpsLim 25 sendA Refs.init exJVal = (t', .ok w) := ⟨_, _, rfl⟩
example := C135_only Ex.exJVal_lim.choose_spec.choose_spec
example := C135_transport_partial linkAB .init (alive _ _ rfl) (show 25 ≤ strDigits by decide) exJVal_sendable Ex.exJVal_lim.choose_spec.choose_spec
/-- With a limit of two digits. -/
example : jsonLoadsLim 2 recvB (.arr [.int 99, .int (-99)]) = jsonLoads recvB (.arr [.int 99, .int (-99)]) := (C135_read 2 recvB _).1 (by decide +kernel)
example : jsonLoadsLim 2 recvB (.arr [.int 99, .int (-100)]) = .error .valueError := rfl
example := C135_fails_between strDigits sendA recvB Refs.init

end Verif
