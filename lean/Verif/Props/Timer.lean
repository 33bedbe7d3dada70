import Verif.Proof.Timer
/-!
# C50–C52 and C72: timers
-/
namespace Verif

/-! ## C50: the limit -/

/-- **C50** A timer with limit `n ≥ 1` started at most once calls its callback at most `n` times, whatever else happens. -/
theorem C50_at_most {iv n now : Int} {es : List TimerEv} (h1 : StartedOnce es) (hn : 1 ≤ n) :
    (callsOf ((TimerSt.init iv (some n) now).run es).2 : Int) ≤ n := by
  have := limit_run (iv := iv) (n := n) (now := now) es h1
  simp only at this
  by_cases hc : es.count .start = 0
  · have := (this.1 hc).none; omega
  · have h := this.2 (by unfold StartedOnce at h1; omega)
    unfold LimitAt at h
    split at h <;> omega

/-- **C50** A limit of zero or less still allows one call (the limit is looked at after a call). -/
theorem C50_at_most_one {iv n now : Int} {es : List TimerEv} (h1 : StartedOnce es) (hn : n < 1) :
    callsOf ((TimerSt.init iv (some n) now).run es).2 ≤ 1 := by
  have := limit_run (iv := iv) (n := n) (now := now) es h1
  simp only at this
  by_cases hc : es.count .start = 0
  · have := (this.1 hc).none; omega
  · have h := this.2 (by unfold StartedOnce at h1; omega)
    unfold LimitAt at h
    split at h <;> omega

/-- **C50** If it is neither stopped nor failing, then when its thread has finished it has called exactly `n` times. -/
theorem C50_exactly {iv n now : Int} {es : List TimerEv} (h1 : StartedOnce es) (h2 : Undisturbed es) (hn : 1 ≤ n)
    (hd : ((TimerSt.init iv (some n) now).run es).1.pc = .dead) :
    (callsOf ((TimerSt.init iv (some n) now).run es).2 : Int) = n := by
  have := full_run (iv := iv) (lim := some n) (now := now) es h1 h2
  simp only at this
  by_cases hc : es.count .start = 0
  · have := (this.1 hc).pc; rw [hd] at this; cases this
  · have h := this.2 (by unfold StartedOnce at h1; omega)
    have hl := (timer_params_run (TimerSt.init iv (some n) now) es).2
    unfold FullAt at h
    rw [hd] at h
    obtain ⟨h3, n', h4, h5, h6⟩ := h
    rw [h4] at hl
    simp only [TimerSt.init, Option.some.injEq] at hl
    omega

/-- **C50** … and as long as the thread has not finished, it still can: nothing blocks it for good. -/
theorem C50_can_finish {iv n now : Int} {es : List TimerEv} (h1 : es.count .start = 1) (h2 : Undisturbed es) :
    ∃ fs, Quiet fs ∧ ((TimerSt.init iv (some n) now).run (es ++ fs)).1.pc = .dead := by
  have hf := (full_run (iv := iv) (lim := some n) (now := now) es (by unfold StartedOnce; omega) h2).2 h1
  have hl := (timer_params_run (TimerSt.init iv (some n) now) es).2
  by_cases hp : ((TimerSt.init iv (some n) now).run es).1.pc = .new
  · -- the thread is not even started
    have hla := launch_run (iv := iv) (lim := some n) (now := now) es (by unfold StartedOnce; omega) h1 hp
    have : ∃ gs, Quiet gs ∧ (((TimerSt.init iv (some n) now).run es).1.run gs).1.pc = .copying := by
      by_cases hst : ((TimerSt.init iv (some n) now).run es).1.starting = 0
      · refine ⟨[.launch], by simp [Quiet], ?_⟩
        have : ((TimerSt.init iv (some n) now).run es).1.launching ≠ 0 := by omega
        simp [TimerSt.run, TimerSt.step, this, hp]
      · refine ⟨[.check, .launch], by simp [Quiet], ?_⟩
        simp [TimerSt.run, TimerSt.step, hst, hp, TimerPc.alive]
    obtain ⟨gs, h3, h4⟩ := this
    have h5 := full_quiet hf h3
    have h6 := (timer_params_run ((TimerSt.init iv (some n) now).run es).1 gs).2
    obtain ⟨fs, h7, h8⟩ := can_finish (n := n) _ h5 (h6.trans hl) (by rw [h4]; simp) (Nat.le_refl _)
    refine ⟨gs ++ fs, ?_, ?_⟩
    · intro e he
      rcases List.mem_append.1 he with he | he
      · exact h3 e he
      · exact h7 e he
    · rw [timer_run_append, timer_run_append]; exact h8
  · obtain ⟨fs, h7, h8⟩ := can_finish (n := n) _ hf hl hp (Nat.le_refl _)
    exact ⟨fs, h7, by rw [timer_run_append]; exact h8⟩

/-- **C50** Without limit the thread of an undisturbed timer never finishes. -/
theorem C50_no_limit {iv now : Int} {es : List TimerEv} (h1 : StartedOnce es) (h2 : Undisturbed es) :
    ((TimerSt.init iv none now).run es).1.pc ≠ .dead := by
  intro hd
  have := full_run (iv := iv) (lim := none) (now := now) es h1 h2
  simp only at this
  by_cases hc : es.count .start = 0
  · have := (this.1 hc).pc; rw [hd] at this; cases this
  · have h := this.2 (by unfold StartedOnce at h1; omega)
    have hl := (timer_params_run (TimerSt.init iv none now) es).2
    unfold FullAt at h
    rw [hd] at h
    obtain ⟨_, n', h4, _⟩ := h
    rw [h4] at hl; simp [TimerSt.init] at hl

namespace Ex

/-- A timer with interval 10 and limit 2, run to its end; the first call takes 3, the second comes late. -/
def ticking : List TimerEv :=
  [.start, .check, .launch, .go, .go, .go, .go, .tick 3, .go, .go, .go, .go, .tick 9, .go, .go, .go, .go, .go, .go]

example : StartedOnce ticking ∧ Undisturbed ticking := ⟨by unfold StartedOnce; decide +kernel, by decide +kernel, by decide +kernel⟩
example : ((TimerSt.init 10 (some 2) 0).run ticking).1.pc = .dead := by decide +kernel
example : callsOf ((TimerSt.init 10 (some 2) 0).run ticking).2 = 2 := by decide +kernel
example : turnsOf ((TimerSt.init 10 (some 2) 0).run ticking).2 = [0, 12] := by decide +kernel
/-- limit 0: one call -/
example : callsOf ((TimerSt.init 10 (some 0) 0).run ticking).2 = 1 := by decide +kernel

end Ex

/-! ## C51: the interval -/

/-- **C51, partial.** Between two consecutive turns of a timer started at most once the interval elapses. Missing: the thread may be delayed
between its turn and the begin of the callback (`C51_fails`). -/
theorem C51_turns_partial {iv now : Int} {lim} {es : List TimerEv} (h1 : StartedOnce es) {pre a b post}
    (h : turnsOf ((TimerSt.init iv lim now).run es).2 = pre ++ a :: b :: post) : a + iv ≤ b := by
  have h2 := (turns_run (iv := iv) (lim := lim) (now := now) es h1).spaced pre a b post h
  rwa [(timer_params_run _ _).1] at h2

/-- **C51** In every history turns and calls alternate, and no call begins before its turn. -/
theorem C51_turn_then_call (iv now : Int) (lim) (es : List TimerEv) :
    (∀ pre a x post, marksOf ((TimerSt.init iv lim now).run es).2 = pre ++ .inl a :: x :: post → ∃ c, x = .inr c ∧ a ≤ c) ∧
    ∀ pre c post, marksOf ((TimerSt.init iv lim now).run es).2 = pre ++ .inr c :: post → ∃ pre' a, pre = pre' ++ [.inl a] ∧ a ≤ c :=
  have h := marks_run (TimerSt.init iv lim now) (by simp [TimerSt.init]) es
  ⟨h.next, h.prev⟩

theorem turnsOf_marks (os : List TimerOut) : turnsOf os = (marksOf os).filterMap (fun m => match m with | .inl t => some t | .inr _ => none) := by
  unfold turnsOf marksOf
  rw [List.filterMap_filterMap]
  congr 1
  funext o
  cases o <;> rfl

/-- **C51, partial.** Of two consecutive calls the second begins at least the interval after the turn of the first. -/
theorem C51_calls_partial {iv now : Int} {lim} {es : List TimerEv} (h1 : StartedOnce es) {pre t c t' c' post}
    (h : marksOf ((TimerSt.init iv lim now).run es).2 = pre ++ .inl t :: .inr c :: .inl t' :: .inr c' :: post) :
    t ≤ c ∧ t + iv ≤ t' ∧ t' ≤ c' := by
  obtain ⟨h2, _⟩ := C51_turn_then_call iv now lim es
  obtain ⟨_, h3, h4⟩ := h2 pre t (.inr c) _ h
  obtain ⟨_, h5, h6⟩ := h2 (pre ++ [.inl t, .inr c]) t' (.inr c') post (by rw [h]; simp)
  simp only [Sum.inr.injEq] at h3 h5
  refine ⟨by omega, ?_, by omega⟩
  have h7 := turnsOf_marks ((TimerSt.init iv lim now).run es).2
  rw [h] at h7
  simp only [List.filterMap_append, List.filterMap_cons] at h7
  exact C51_turns_partial h1 h7

namespace Ex

/-- **C51 fails** for the begins of the callback: the thread is held up for 5 between its first turn and the callback, and the second
callback begins 5, not 10, after the first. -/
theorem C51_fails : ∃ es, StartedOnce es ∧ Undisturbed es ∧
    marksOf ((TimerSt.init 10 none 0).run es).2 = [.inl 0, .inr 5, .inl 10, .inr 10] :=
  ⟨[.start, .check, .launch, .go, .go, .go, .tick 5, .go, .go, .go, .go, .go, .tick 5, .go, .go, .go],
    by unfold StartedOnce; decide +kernel, ⟨by decide +kernel, by decide +kernel⟩, by decide +kernel⟩

end Ex

/-! ## C52: stopping -/

theorem stopped_run {s : TimerSt} (hr : s.running = some false) : ∀ es : List TimerEv, .start ∉ es →
    (s.run es).1.running = some false ∧ callsOf (s.run es).2 ≤ (if s.pc = .turn then 1 else 0) := by
  intro es
  induction es generalizing s with
  | nil => intro _; exact ⟨hr, by simp [TimerSt.run, callsOf]⟩
  | cons e es ih =>
    intro he
    have hne : e ≠ .start := fun h => he (by simp [h])
    have hes : TimerEv.start ∉ es := fun h => he (by simp [h])
    have key : (s.step e).1.running = some false ∧
        callsOf (s.step e).2 + (if (s.step e).1.pc = .turn then 1 else 0) ≤ (if s.pc = .turn then 1 else 0) := by
      obtain ⟨iv, lim, now, pc, run, last, count, st, la⟩ := s
      simp only at hr; subst hr
      cases e with
      | start => exact absurd rfl hne
      | go => cases pc <;> simp only [TimerSt.step, TimerSt.go] <;> (repeat' split) <;> simp_all [callsOf]
      | launch =>
        simp only [TimerSt.step]
        repeat' split
        all_goals simp_all [callsOf]
      | fail =>
        simp only [TimerSt.step]
        repeat' split
        all_goals simp_all [callsOf]
      | check =>
        simp only [TimerSt.step]
        repeat' split
        all_goals simp_all [callsOf]
      | tick d => exact ⟨rfl, Nat.le_of_eq (Nat.zero_add _)⟩
      | stop => exact ⟨rfl, Nat.le_of_eq (Nat.zero_add _)⟩
    have h2 := ih key.1 hes
    simp only [TimerSt.run, callsOf_append]
    exact ⟨h2.1, by omega⟩

/-- **C52** After `stop()`, as long as `start()` is not called, at most one call begins, and none unless the thread had taken its turn
before and not yet called; this from every situation. -/
theorem C52_stop (s : TimerSt) (es : List TimerEv) (h : .start ∉ es) :
    callsOf ((s.step .stop).1.run es).2 ≤ if s.pc = .turn then 1 else 0 :=
  (stopped_run (s := (s.step .stop).1) rfl es h).2

/-- **C52** … and it takes no further turn. -/
theorem C52_no_turn (s : TimerSt) (es : List TimerEv) (h : .start ∉ es) : turnsOf ((s.step .stop).1.run es).2 = [] := by
  suffices H : ∀ (es : List TimerEv) (s : TimerSt), s.running = some false → .start ∉ es → turnsOf (s.run es).2 = [] from
    H es _ rfl h
  intro es
  induction es with
  | nil => intro s _ _; rfl
  | cons e es ih =>
    intro s hr he
    have hne : e ≠ .start := fun h => he (by simp [h])
    have hes : TimerEv.start ∉ es := fun h => he (by simp [h])
    have h1 := (stopped_run hr [e] (by simpa using Ne.symm hne)).1
    simp only [TimerSt.run] at h1
    simp only [TimerSt.run, turnsOf_append]
    rw [ih _ h1 hes, List.append_nil]
    obtain ⟨iv, lim, now, pc, run, last, count, st, la⟩ := s
    simp only at hr; subst hr
    cases e with
    | start => exact absurd rfl hne
    | go => cases pc <;> simp only [TimerSt.step, TimerSt.go] <;> (repeat' split) <;> simp_all [turnsOf]
    | _ => simp only [TimerSt.step] <;> (repeat' split) <;> simp [turnsOf]

namespace Ex

/-- Stopped just after its turn, a timer calls once more; stopped while it sleeps, it does not. -/
example : callsOf ((((TimerSt.init 10 none 0).run [.start, .check, .launch, .go, .go, .go]).1.step .stop).1.run
    [.go, .go, .go, .go, .go, .tick 20, .go, .go, .go, .go]).2 = 1 := by decide +kernel
example : callsOf ((((TimerSt.init 10 none 0).run [.start, .check, .launch, .go, .go, .go, .go, .go, .go, .go, .go]).1.step .stop).1.run
    [.tick 20, .go, .go, .go, .go]).2 = 0 := by decide +kernel

end Ex

/-! ## C72: starting -/

/-- **C72, partial.** A timer that is started only once, and not disturbed, never dies without having called its callback, and its thread
never dies of an exception of its own. Missing: starting it again (`C72_fails`, `C72_fails_race`, `C72_fails_again`). -/
theorem C72_started_partial {iv now : Int} {lim} {es : List TimerEv} (h1 : StartedOnce es) (h2 : Undisturbed es)
    (hd : ((TimerSt.init iv lim now).run es).1.pc = .dead) : 1 ≤ callsOf ((TimerSt.init iv lim now).run es).2 := by
  have := full_run (iv := iv) (lim := lim) (now := now) es h1 h2
  simp only at this
  by_cases hc : es.count .start = 0
  · have := (this.1 hc).pc; rw [hd] at this; cases this
  · have h := this.2 (by unfold StartedOnce at h1; omega)
    unfold FullAt at h
    rw [hd] at h
    exact h.1

/-- A timer whose thread has finished never calls its callback again, whatever is done with it. -/
theorem C72_dead {s : TimerSt} (hd : s.pc = .dead) (es : List TimerEv) : (s.run es).1.pc = .dead ∧ callsOf (s.run es).2 = 0 := by
  induction es generalizing s with
  | nil => exact ⟨hd, rfl⟩
  | cons e es ih =>
    have key : (s.step e).1.pc = .dead ∧ callsOf (s.step e).2 = 0 := by
      cases e <;> simp only [TimerSt.step, TimerSt.go, hd] <;> (repeat' split) <;> simp_all [callsOf]
    have h2 := ih key.1
    simp only [TimerSt.run, callsOf_append]
    exact ⟨h2.1, by omega⟩

/-- **C72, partial.** The thread of a timer started at most once does not crash. -/
theorem C72_no_crash_partial {iv now : Int} {lim} {es : List TimerEv} (h1 : StartedOnce es) (e : Exc) :
    .crashed e ∉ ((TimerSt.init iv lim now).run es).2 := by
  induction es using snoc_induction with
  | h0 => simp [TimerSt.run]
  | hs es ev ih =>
    have h1' : StartedOnce es := by unfold StartedOnce at *; rw [List.count_append] at h1; omega
    rw [timer_run_snoc]
    simp only [List.mem_append, not_or]
    refine ⟨ih h1', ?_⟩
    have ht := turns_run (iv := iv) (lim := lim) (now := now) es h1'
    simp only at ht
    generalize ((TimerSt.init iv lim now).run es).1 = s at ht
    have hs := ht.sum
    obtain ⟨iv, lim, now, pc, run, last, count, st, la⟩ := s
    cases ev with
    | go => cases pc <;> simp only [TimerSt.step, TimerSt.go] <;> (repeat' split) <;> simp_all
    | _ => simp only [TimerSt.step] <;> (repeat' split) <;> simp

namespace Ex

/-- **C72 fails.** A timer that has just made its last call is started again: `start()` returns, but the thread finishes, and the callback
is never called again (`C72_dead`). -/
theorem C72_fails : ∃ es : List TimerEv, Undisturbed es ∧ ∃ s os, (TimerSt.init 10 (some 1) 0).run es = (s, os) ∧ callsOf os = 1 ∧
    ∃ fs, s.run (.start :: .check :: fs) = ({ s with pc := .dead, running := some false, last := none, count := 0 }, [.started, .finished]) :=
  ⟨[.start, .check, .launch, .go, .go, .go, .go, .go, .go], ⟨by decide +kernel, by decide +kernel⟩, _, _, rfl, by decide +kernel, [.go], by decide +kernel⟩

/-- … a little later it raises RuntimeError. -/
theorem C72_fails_again : ((TimerSt.init 10 (some 1) 0).run
    [.start, .check, .launch, .go, .go, .go, .go, .go, .go, .go, .start, .check, .launch]).2.getLast? = some (.raised .runtimeError) := by
  decide +kernel

/-- … and starting a timer that is running can kill its thread with a TypeError. -/
theorem C72_fails_race : .crashed .typeError ∈ ((TimerSt.init 10 none 0).run
    [.start, .check, .launch, .go, .go, .go, .go, .go, .go, .go, .start, .check, .go]).2 := by
  decide +kernel

end Ex

namespace Ex

/-! ## The theorems on these cases -/

theorem ticking_once : StartedOnce ticking := by unfold StartedOnce; decide +kernel
theorem ticking_undisturbed : Undisturbed ticking := ⟨by decide +kernel, by decide +kernel⟩
example := C50_at_most (iv := 10) (n := 2) (now := 0) ticking_once (by decide)
example := C50_at_most_one (iv := 10) (n := 0) (now := 0) ticking_once (by decide)
example := C50_exactly (iv := 10) (n := 2) (now := 0) ticking_once ticking_undisturbed (by decide) (by decide +kernel)
/-- Interrupted after eight steps. -/
example := C50_can_finish (iv := 10) (n := 2) (now := 0) (es := ticking.take 8) (by decide +kernel) ⟨by decide +kernel, by decide +kernel⟩
example := C50_no_limit (iv := 10) (now := 0) ticking_once ticking_undisturbed
example : (0 : Int) + 10 ≤ 12 := C51_turns_partial (iv := 10) (now := 0) (lim := some 2) ticking_once (pre := []) (post := []) (by decide +kernel)
example : (0 : Int) ≤ 0 ∧ (0 : Int) + 10 ≤ 12 ∧ (12 : Int) ≤ 12 :=
  C51_calls_partial (iv := 10) (now := 0) (lim := some 2) ticking_once (pre := []) (post := []) (by decide +kernel)
/-- Stopped just after its turn. -/
example := C52_stop ((TimerSt.init 10 none 0).run [.start, .check, .launch, .go, .go, .go]).1 [.go, .go, .go, .go, .go, .tick 20, .go, .go, .go, .go] (by decide)
example := C52_no_turn ((TimerSt.init 10 none 0).run [.start, .check, .launch, .go, .go, .go]).1 [.go, .go, .go, .go, .go, .tick 20, .go, .go, .go, .go] (by decide)
example := C72_started_partial (iv := 10) (now := 0) (lim := some 2) ticking_once ticking_undisturbed (by decide +kernel)
example := C72_dead (s := ((TimerSt.init 10 (some 2) 0).run ticking).1) (by decide +kernel) [.start, .check, .launch, .go]
example (e : Exc) := C72_no_crash_partial (iv := 10) (now := 0) (lim := some 2) ticking_once e

end Ex

end Verif
