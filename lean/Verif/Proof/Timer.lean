import Verif.Spec.Timer
import Verif.Proof.Registry
namespace Verif

theorem timer_run_append (s : TimerSt) (es fs : List TimerEv) :
    s.run (es ++ fs) = (((s.run es).1.run fs).1, (s.run es).2 ++ ((s.run es).1.run fs).2) := by
  induction es generalizing s with
  | nil => simp [TimerSt.run]
  | cons e es ih => simp [TimerSt.run, ih, List.append_assoc]

theorem timer_run_snoc (s : TimerSt) (es : List TimerEv) (e : TimerEv) :
    s.run (es ++ [e]) = (((s.run es).1.step e).1, (s.run es).2 ++ ((s.run es).1.step e).2) := by
  rw [timer_run_append]; simp [TimerSt.run]

theorem timer_params (s : TimerSt) (e : TimerEv) : (s.step e).1.interval = s.interval ∧ (s.step e).1.limit = s.limit := by
  cases e <;> simp only [TimerSt.step, TimerSt.go]
  all_goals (repeat' split) <;> simp

theorem timer_params_run (s : TimerSt) (es : List TimerEv) : (s.run es).1.interval = s.interval ∧ (s.run es).1.limit = s.limit := by
  induction es generalizing s with
  | nil => exact ⟨rfl, rfl⟩
  | cons e es ih =>
    have h1 := timer_params s e
    have h2 := ih (s.step e).1
    simp only [TimerSt.run]
    exact ⟨h2.1.trans h1.1, h2.2.trans h1.2⟩

theorem callsOf_append (a b : List TimerOut) : callsOf (a ++ b) = callsOf a + callsOf b := by simp [callsOf]
theorem turnsOf_append (a b : List TimerOut) : turnsOf (a ++ b) = turnsOf a ++ turnsOf b := by simp [turnsOf]
theorem marksOf_append (a b : List TimerOut) : marksOf (a ++ b) = marksOf a ++ marksOf b := by simp [marksOf]

/-- Before the first `start` nothing happens. -/
structure Unstarted (s : TimerSt) (b : Nat) : Prop where
  pc : s.pc = .new
  none : b = 0
  c0 : s.count = 0
  s0 : s.starting = 0
  l0 : s.launching = 0

/-- What holds after one `start`, with `b` calls made. -/
def LimitAt (n : Int) (s : TimerSt) (b : Nat) : Prop :=
  match s.pc with
  | .new | .copying => b = 0 ∧ s.count = 0
  | .head | .sum | .asleep _ | .ready | .turn => (b : Int) = s.count ∧ (b = 0 ∨ (b : Int) < n)
  | .inside | .counting => (b : Int) = s.count + 1 ∧ (b = 1 ∨ (b : Int) ≤ n)
  | .ending | .dead => b ≤ 1 ∨ (b : Int) ≤ n

theorem limit_step {n : Int} {s : TimerSt} {b : Nat} {e : TimerEv} (hn : s.limit = some n) (h : LimitAt n s b) (he : e ≠ .start) :
    LimitAt n (s.step e).1 (b + callsOf (s.step e).2) := by
  obtain ⟨iv, lim, now, pc, run, last, count, st, la⟩ := s
  simp only at hn; subst hn
  cases e with
  | tick d => simpa [TimerSt.step, LimitAt, callsOf] using h
  | start => exact absurd rfl he
  | check =>
    simp only [TimerSt.step]
    repeat' split
    all_goals simpa [LimitAt, callsOf] using h
  | launch =>
    simp only [TimerSt.step]
    repeat' split
    · simpa [LimitAt, callsOf] using h
    · rename_i hp; subst hp; simpa [LimitAt, callsOf] using h
    · simpa [LimitAt, callsOf] using h
  | stop => simpa [TimerSt.step, LimitAt, callsOf] using h
  | fail =>
    simp only [TimerSt.step]
    split
    · rename_i hp
      rcases hp with hp | hp
      · subst hp; simp only [LimitAt, callsOf] at h ⊢; simp only [List.countP_nil]; omega
      · subst hp; simp only [LimitAt, callsOf] at h ⊢; simp only [List.countP_nil]; omega
    · simpa [LimitAt, callsOf] using h
  | go =>
    cases pc <;> simp only [TimerSt.step, TimerSt.go]
    all_goals repeat' split
    all_goals simp only [LimitAt, callsOf, List.countP_nil, List.countP_cons] at h ⊢
    all_goals simp
    all_goals omega

theorem unstarted_step {s : TimerSt} {b : Nat} {e : TimerEv} (h : Unstarted s b) (he : e ≠ .start) :
    Unstarted (s.step e).1 (b + callsOf (s.step e).2) := by
  obtain ⟨h1, h2, h3, h4, h5⟩ := h
  cases e with
  | start => exact absurd rfl he
  | _ => constructor <;> simp [TimerSt.step, TimerSt.go, h1, h2, h3, h4, h5, callsOf]

/-- Invariants of histories with at most one `start`. -/
theorem once_run {s0 : TimerSt} {ok : TimerEv → Prop} {U I : TimerSt → List TimerOut → Prop} (h0 : U s0 [])
    (hU : ∀ s os e, ok e → e ≠ .start → U s os → U (s.step e).1 (os ++ (s.step e).2))
    (hS : ∀ s os, U s os → I (s.step .start).1 (os ++ (s.step .start).2))
    (hI : ∀ s os e, ok e → e ≠ .start → I s os → I (s.step e).1 (os ++ (s.step e).2)) (es : List TimerEv) :
    (∀ e ∈ es, ok e) → es.count .start ≤ 1 →
    (es.count .start = 0 → U (s0.run es).1 (s0.run es).2) ∧ (es.count .start = 1 → I (s0.run es).1 (s0.run es).2) := by
  induction es using snoc_induction with
  | h0 => intro _ _; exact ⟨fun _ => h0, by simp⟩
  | hs es e ih =>
    intro hok hc
    have ih := ih (fun e he => hok e (by simp [he]))
    rw [timer_run_snoc]
    rw [List.count_append] at hc ⊢
    by_cases he : e = .start
    · subst he
      simp only [List.count_cons_self, List.count_nil] at hc ⊢
      have hz : es.count .start = 0 := by omega
      refine ⟨by omega, fun _ => hS _ _ ((ih (by omega)).1 hz)⟩
    · have hz : [e].count .start = 0 := by simp [he]
      rw [hz] at hc ⊢
      have hoke := hok e (by simp)
      exact ⟨fun h => hU _ _ _ hoke he ((ih (by omega)).1 h), fun h => hI _ _ _ hoke he ((ih (by omega)).2 h)⟩

/-- The calls made up to any moment, for a timer started at most once. -/
theorem limit_run {iv n now : Int} (es : List TimerEv) (h1 : StartedOnce es) :
    let r := (TimerSt.init iv (some n) now).run es
    (es.count .start = 0 → Unstarted r.1 (callsOf r.2)) ∧ (es.count .start = 1 → LimitAt n r.1 (callsOf r.2)) := by
  have := once_run (s0 := TimerSt.init iv (some n) now) (ok := fun _ => True)
    (U := fun s os => s.limit = some n ∧ Unstarted s (callsOf os)) (I := fun s os => s.limit = some n ∧ LimitAt n s (callsOf os))
    ⟨rfl, rfl, rfl, rfl, rfl, rfl⟩
    (by
      rintro s os e _ he ⟨hn, h⟩
      rw [callsOf_append]
      exact ⟨(timer_params s e).2.trans hn, unstarted_step h he⟩)
    (by
      rintro s os ⟨hn, h⟩
      refine ⟨hn, ?_⟩
      simp [LimitAt, TimerSt.step, h.pc, h.none])
    (by
      rintro s os e _ he ⟨hn, h⟩
      rw [callsOf_append]
      exact ⟨(timer_params s e).2.trans hn, limit_step hn h he⟩) es (fun _ _ => trivial) h1
  exact ⟨fun h => (this.1 h).2, fun h => (this.2 h).2⟩

/-- What holds of a timer that was started once and not disturbed, with `b` calls made. -/
def FullAt (s : TimerSt) (b : Nat) : Prop :=
  match s.pc with
  | .new | .copying => s.running = some true ∧ b = 0 ∧ s.count = 0
  | .head | .asleep _ | .ready | .turn => s.running = some true ∧ (b : Int) = s.count ∧ (∀ n, s.limit = some n → b = 0 ∨ (b : Int) < n)
  | .sum => s.running = some true ∧ (b : Int) = s.count ∧ (∀ n, s.limit = some n → b = 0 ∨ (b : Int) < n) ∧ s.last ≠ none
  | .inside | .counting => s.running = some true ∧ (b : Int) = s.count + 1 ∧ 1 ≤ b ∧ (∀ n, s.limit = some n → b = 1 ∨ (b : Int) ≤ n)
  | .ending => s.running = some true ∧ 1 ≤ b ∧ ∃ n, s.limit = some n ∧ (b = 1 ∨ (b : Int) ≤ n) ∧ n ≤ b
  | .dead => 1 ≤ b ∧ ∃ n, s.limit = some n ∧ (b = 1 ∨ (b : Int) ≤ n) ∧ n ≤ b

theorem full_step {s : TimerSt} {b : Nat} {e : TimerEv} (h : FullAt s b) (he : e ≠ .start) (h1 : e ≠ .stop) (h2 : e ≠ .fail) :
    FullAt (s.step e).1 (b + callsOf (s.step e).2) := by
  obtain ⟨iv, lim, now, pc, run, last, count, st, la⟩ := s
  cases e with
  | start => exact absurd rfl he
  | stop => exact absurd rfl h1
  | fail => exact absurd rfl h2
  | tick d => exact h
  | check =>
    simp only [TimerSt.step]
    repeat' split
    all_goals exact h
  | launch =>
    simp only [TimerSt.step]
    repeat' split
    · exact h
    · rename_i hp
      subst hp
      exact h
    · exact h
  | go =>
    cases lim with
    | none =>
      cases pc <;> simp only [TimerSt.step, TimerSt.go]
      all_goals repeat' split
      all_goals simp only [FullAt, callsOf, List.countP_nil, List.countP_cons] at h ⊢
      all_goals simp at h ⊢
      all_goals simp_all
      all_goals omega
    | some n =>
      cases pc <;> simp only [TimerSt.step, TimerSt.go]
      all_goals repeat' split
      all_goals simp only [FullAt, callsOf, List.countP_nil, List.countP_cons] at h ⊢
      all_goals simp at h ⊢
      all_goals simp_all
      all_goals omega

/-- Undisturbed timers. -/
theorem full_run {iv now : Int} {lim} (es : List TimerEv) (h1 : StartedOnce es) (h2 : Undisturbed es) :
    let r := (TimerSt.init iv lim now).run es
    (es.count .start = 0 → Unstarted r.1 (callsOf r.2)) ∧ (es.count .start = 1 → FullAt r.1 (callsOf r.2)) :=
  once_run (s0 := TimerSt.init iv lim now) (ok := fun e => e ≠ .stop ∧ e ≠ .fail)
    (U := fun s os => Unstarted s (callsOf os)) (I := fun s os => FullAt s (callsOf os))
    ⟨rfl, rfl, rfl, rfl, rfl⟩
    (by
      rintro s os e _ he h
      rw [callsOf_append]
      exact unstarted_step h he)
    (by
      rintro s os h
      rw [callsOf_append, h.none]
      simp [FullAt, TimerSt.step, h.pc, callsOf])
    (by
      rintro s os e ho he h
      rw [callsOf_append]
      exact full_step h he ho.1 ho.2) es (fun e he => ⟨fun hc => h2.1 (hc ▸ he), fun hc => h2.2 (hc ▸ he)⟩) h1

/-! ## Turns -/

/-- The turns are spaced. -/
def Spaced (iv : Int) (ts : List Int) : Prop := ∀ pre a b post, ts = pre ++ a :: b :: post → a + iv ≤ b

theorem spaced_snoc {iv t : Int} {ts : List Int} (h : Spaced iv ts) (hl : ∀ l, ts.getLast? = some l → l + iv ≤ t) : Spaced iv (ts ++ [t]) := by
  intro pre a b post he
  rcases List.eq_nil_or_concat post with rfl | ⟨post', x, rfl⟩
  · have : ts ++ [t] = (pre ++ [a]) ++ [b] := by rw [he]; simp
    obtain ⟨h1, h2⟩ := List.append_inj' this rfl
    simp only [List.cons.injEq, and_true] at h2
    subst h2
    exact hl a (by rw [h1]; simp)
  · have : ts ++ [t] = (pre ++ a :: b :: post') ++ [x] := by rw [he]; simp
    obtain ⟨h1, _⟩ := List.append_inj' this rfl
    exact h pre a b post' h1

/-- What holds of the turns of a timer started once. -/
structure TurnsAt (s : TimerSt) (ts : List Int) : Prop where
  spaced : Spaced s.interval ts
  last : s.pc ≠ .new → s.pc ≠ .copying → s.last = ts.getLast?
  early : s.pc = .new ∨ s.pc = .copying → ts = [] ∧ s.last = none
  sum : s.pc = .sum → s.last ≠ none
  asleep : ∀ u, s.pc = .asleep u → ∃ l, s.last = some l ∧ l + s.interval ≤ u
  ready : s.pc = .ready → ∀ l, s.last = some l → l + s.interval ≤ s.now

theorem turns_step {s : TimerSt} {ts : List Int} {e : TimerEv} (h : TurnsAt s ts) (he : e ≠ .start) :
    TurnsAt (s.step e).1 (ts ++ turnsOf (s.step e).2) := by
  obtain ⟨h1, h2, h3, h4, h5, h6⟩ := h
  obtain ⟨iv, lim, now, pc, run, last, count, st, la⟩ := s
  have same : ∀ now' : Int, now ≤ now' → ∀ run' lim' count' st' la',
      TurnsAt ⟨iv, lim', now', pc, run', last, count', st', la'⟩ (ts ++ []) := by
    intro now' hn run' lim' count' st' la'
    rw [List.append_nil]
    exact ⟨h1, h2, h3, h4, h5, fun hp l hl => by have := h6 hp l hl; simp only at this ⊢; omega⟩
  cases e with
  | start => exact absurd rfl he
  | tick d => exact same (now + d) (by omega) _ _ _ _ _
  | stop => exact same now (by omega) _ _ _ _ _
  | check =>
    simp only [TimerSt.step]
    repeat' split
    all_goals exact same now (by omega) _ _ _ _ _
  | launch =>
    simp only [TimerSt.step]
    repeat' split
    · exact same now (by omega) _ _ _ _ _
    · rename_i hp
      subst hp
      obtain ⟨h7, h8⟩ := h3 (.inl rfl)
      subst h7; simp only at h8; subst h8
      exact ⟨h1, by simp, by simp [turnsOf], by simp, by simp, by simp⟩
    · exact same now (by omega) _ _ _ _ _
  | fail =>
    simp only [TimerSt.step]
    split
    · rename_i hp
      simp only [turnsOf, List.filterMap_nil, List.append_nil]
      rcases hp with hp | hp
      · subst hp
        exact ⟨h1, fun _ _ => h2 (by simp) (by simp), by simp, by simp, by simp, by simp⟩
      · subst hp
        obtain ⟨h7, h8⟩ := h3 (.inr rfl)
        subst h7; simp only at h8; subst h8
        exact ⟨h1, by simp, by simp, by simp, by simp, by simp⟩
    · exact same now (by omega) _ _ _ _ _
  | go =>
    cases pc <;> simp only [TimerSt.step, TimerSt.go]
    all_goals repeat' split
    all_goals simp only [turnsOf, List.filterMap_nil, List.filterMap_cons, List.append_nil]
    case new => exact ⟨h1, h2, h3, h4, h5, h6⟩
    case dead => exact ⟨h1, h2, h3, h4, h5, h6⟩
    case copying =>
      obtain ⟨h7, h8⟩ := h3 (.inr rfl)
      subst h7
      exact ⟨h1, fun _ _ => h8, by simp, by simp, by simp, by simp⟩
    -- at the head: never called yet, or called
    · have hl := h2 (by simp) (by simp)
      exact ⟨h1, fun _ _ => hl, by simp, by simp, by simp, by simp⟩
    · have hl := h2 (by simp) (by simp)
      exact ⟨h1, fun _ _ => hl, by simp, by simp, by simp, by simp⟩
    -- the sum
    · exact absurd rfl (h4 rfl)
    · rename_i l hd
      have hl := h2 (by simp) (by simp)
      refine ⟨h1, fun _ _ => hl, by simp, by simp, ?_, by simp⟩
      intro u hu
      cases hu
      exact ⟨l, rfl, by simp only; omega⟩
    · rename_i l hd
      have hl := h2 (by simp) (by simp)
      refine ⟨h1, fun _ _ => hl, by simp, by simp, by simp, ?_⟩
      intro _ l' hl'
      cases hl'
      simp only; omega
    -- asleep
    · rename_i u hu
      have hl := h2 (by simp) (by simp)
      refine ⟨h1, fun _ _ => hl, by simp, by simp, by simp, ?_⟩
      intro _ l' hl'
      obtain ⟨l, h7, h8⟩ := h5 u rfl
      simp only at h7 hl' h8 ⊢
      rw [h7] at hl'; cases hl'; omega
    · exact ⟨h1, h2, h3, h4, h5, h6⟩
    -- ready
    · have hl := h2 (by simp) (by simp)
      refine ⟨spaced_snoc h1 ?_, by simp, by simp, by simp, by simp, by simp⟩
      intro l hl'
      rw [← hl] at hl'
      exact h6 rfl l hl'
    · exact ⟨h1, fun _ _ => h2 (by simp) (by simp), by simp, by simp, by simp, by simp⟩
    all_goals exact ⟨h1, fun _ _ => h2 (by simp) (by simp), by simp, by simp, by simp, by simp⟩

theorem turns_run {iv now : Int} {lim} (es : List TimerEv) (h1 : StartedOnce es) :
    let r := (TimerSt.init iv lim now).run es
    TurnsAt r.1 (turnsOf r.2) := by
  have := once_run (s0 := TimerSt.init iv lim now) (ok := fun _ => True)
    (U := fun s os => TurnsAt s (turnsOf os) ∧ Unstarted s 0) (I := fun s os => TurnsAt s (turnsOf os))
    ⟨⟨by intro pre a b post h; simp [turnsOf] at h, by simp [TimerSt.init], by simp [TimerSt.init, turnsOf], by simp [TimerSt.init],
      by simp [TimerSt.init], by simp [TimerSt.init]⟩, rfl, rfl, rfl, rfl, rfl⟩
    (by
      rintro s os e _ he ⟨h, h'⟩
      rw [turnsOf_append]
      refine ⟨turns_step h he, ?_⟩
      have := unstarted_step h' he
      have h0 : callsOf (s.step e).2 = 0 := by have := this.none; omega
      rwa [h0] at this)
    (by
      rintro s os ⟨h, h'⟩
      have hp := h'.pc
      have h0 := (h.early (.inl hp)).1
      rw [turnsOf_append, h0]
      exact ⟨by intro pre a b post h; simp [turnsOf, TimerSt.step] at h, by simp [TimerSt.step, hp], by simp [TimerSt.step, turnsOf],
        by simp [TimerSt.step, hp], by simp [TimerSt.step, hp], by simp [TimerSt.step, hp]⟩)
    (by
      rintro s os e _ he h
      rw [turnsOf_append]
      exact turns_step h he) es (fun _ _ => trivial) h1
  by_cases hc : es.count .start = 0
  · exact (this.1 hc).1
  · exact this.2 (by unfold StartedOnce at h1; omega)

/-! ## Turns and calls -/

/-- What holds of turns and calls of any timer. -/
structure MarksAt (s : TimerSt) (ms : List (Int ⊕ Int)) : Prop where
  /-- a turn is followed by its call -/
  next : ∀ pre a x post, ms = pre ++ .inl a :: x :: post → ∃ c, x = .inr c ∧ a ≤ c
  /-- a call is preceded by its turn -/
  prev : ∀ pre c post, ms = pre ++ .inr c :: post → ∃ pre' a, pre = pre' ++ [.inl a] ∧ a ≤ c
  turn : s.pc = .turn → ∃ pre a, ms = pre ++ [.inl a] ∧ a ≤ s.now
  other : s.pc ≠ .turn → ∀ pre a, ms ≠ pre ++ [.inl a]

theorem marks_took {s s' : TimerSt} {ms} (h : MarksAt s ms) (hp : s.pc ≠ .turn) (hp' : s'.pc = .turn) (hn : s'.now = s.now) :
    MarksAt s' (ms ++ [.inl s.now]) := by
  refine ⟨?_, ?_, fun _ => ⟨ms, s.now, rfl, by omega⟩, fun hc => absurd hp' hc⟩
  · intro pre a x post he
    rcases List.eq_nil_or_concat post with rfl | ⟨post', y, rfl⟩
    · have : ms ++ [.inl s.now] = (pre ++ [.inl a]) ++ [x] := by rw [he]; simp
      obtain ⟨h1, _⟩ := List.append_inj' this rfl
      exact absurd h1 (h.other hp pre a)
    · have : ms ++ [.inl s.now] = (pre ++ .inl a :: x :: post') ++ [y] := by rw [he]; simp
      obtain ⟨h1, _⟩ := List.append_inj' this rfl
      exact h.next _ _ _ _ h1
  · intro pre c post he
    rcases List.eq_nil_or_concat post with rfl | ⟨post', y, rfl⟩
    · have : ms ++ [.inl s.now] = pre ++ [.inr c] := he
      obtain ⟨_, h1⟩ := List.append_inj' this rfl
      simp at h1
    · have : ms ++ [.inl s.now] = (pre ++ .inr c :: post') ++ [y] := by rw [he]; simp
      obtain ⟨h1, _⟩ := List.append_inj' this rfl
      exact h.prev _ _ _ h1

theorem marks_called {s s' : TimerSt} {ms} (h : MarksAt s ms) (hp : s.pc = .turn) (hp' : s'.pc ≠ .turn) :
    MarksAt s' (ms ++ [.inr s.now]) := by
  obtain ⟨q, b, rfl, hb⟩ := h.turn hp
  refine ⟨?_, ?_, fun hc => absurd hc hp', ?_⟩
  · intro pre a x post he
    rcases List.eq_nil_or_concat post with rfl | ⟨post', y, rfl⟩
    · have : q ++ [.inl b] ++ [.inr s.now] = (pre ++ [.inl a]) ++ [x] := by rw [he]; simp
      obtain ⟨h1, h2⟩ := List.append_inj' this rfl
      obtain ⟨_, h3⟩ := List.append_inj' h1 rfl
      simp only [List.cons.injEq, and_true, Sum.inl.injEq] at h2 h3
      exact ⟨s.now, h2.symm, by omega⟩
    · have : q ++ [.inl b] ++ [.inr s.now] = (pre ++ .inl a :: x :: post') ++ [y] := by rw [he]; simp
      obtain ⟨h1, _⟩ := List.append_inj' this rfl
      exact h.next _ _ _ _ h1
  · intro pre c post he
    rcases List.eq_nil_or_concat post with rfl | ⟨post', y, rfl⟩
    · have : q ++ [.inl b] ++ [.inr s.now] = pre ++ [.inr c] := he
      obtain ⟨h1, h2⟩ := List.append_inj' this rfl
      simp only [List.cons.injEq, and_true, Sum.inr.injEq] at h2
      exact ⟨q, b, h1.symm, by omega⟩
    · have : q ++ [.inl b] ++ [.inr s.now] = (pre ++ .inr c :: post') ++ [y] := by rw [he]; simp
      obtain ⟨h1, _⟩ := List.append_inj' this rfl
      exact h.prev _ _ _ h1
  · intro _ pre a he
    obtain ⟨_, h1⟩ := List.append_inj' he rfl
    simp at h1

theorem marks_same {s s' : TimerSt} {ms} (h : MarksAt s ms) (hp : s.pc = .turn ↔ s'.pc = .turn) (hn : s.now ≤ s'.now) : MarksAt s' (ms ++ []) := by
  rw [List.append_nil]
  refine ⟨h.next, h.prev, ?_, fun hc => h.other (fun hh => hc (hp.1 hh))⟩
  intro hc
  obtain ⟨pre, a, h1, h2⟩ := h.turn (hp.2 hc)
  exact ⟨pre, a, h1, by omega⟩

theorem marks_step {s : TimerSt} {ms} (e : TimerEv) (h : MarksAt s ms) : MarksAt (s.step e).1 (ms ++ marksOf (s.step e).2) := by
  cases e with
  | tick d => exact marks_same h Iff.rfl (by simp only [TimerSt.step]; omega)
  | start => exact marks_same h Iff.rfl (Int.le_refl _)
  | stop => exact marks_same h Iff.rfl (Int.le_refl _)
  | check =>
    simp only [TimerSt.step]
    repeat' split
    all_goals exact marks_same h Iff.rfl (Int.le_refl _)
  | launch =>
    simp only [TimerSt.step]
    repeat' split
    · exact marks_same h Iff.rfl (Int.le_refl _)
    · rename_i hp; exact marks_same h (by simp [hp]) (Int.le_refl _)
    · exact marks_same h Iff.rfl (Int.le_refl _)
  | fail =>
    simp only [TimerSt.step]
    split
    · rename_i hp; refine marks_same h ?_ (Int.le_refl _); rcases hp with hp | hp <;> simp [hp]
    · exact marks_same h Iff.rfl (Int.le_refl _)
  | go =>
    cases hp : s.pc
    case turn =>
      simp only [TimerSt.step, TimerSt.go, hp]
      exact marks_called h hp (by simp)
    case ready =>
      simp only [TimerSt.step, TimerSt.go, hp]
      split
      · exact marks_took h (by simp [hp]) rfl rfl
      · exact marks_same h (by simp [hp]) (Int.le_refl _)
    all_goals simp only [TimerSt.step, TimerSt.go, hp]
    all_goals repeat' split
    all_goals exact marks_same h (by simp [hp]) (Int.le_refl _)

theorem marks_run (s : TimerSt) (h : s.pc ≠ .turn) (es : List TimerEv) : MarksAt (s.run es).1 (marksOf (s.run es).2) := by
  induction es using snoc_induction with
  | h0 => exact ⟨by simp [TimerSt.run, marksOf], by simp [TimerSt.run, marksOf], fun hp => absurd hp h, by simp [TimerSt.run, marksOf]⟩
  | hs es e ih => rw [timer_run_snoc]; simp only; rw [marksOf_append]; exact marks_step e ih

/-! ## Termination -/

/-- Time passing and steps of the thread only. -/
def Quiet (es : List TimerEv) : Prop := ∀ e ∈ es, e = .go ∨ e = .check ∨ e = .launch ∨ ∃ d, e = .tick d

theorem full_quiet {es : List TimerEv} : ∀ {s : TimerSt} {b : Nat}, FullAt s b → Quiet es → FullAt (s.run es).1 (b + callsOf (s.run es).2) := by
  induction es with
  | nil => intro s b h _; exact h
  | cons e es ih =>
    intro s b h hq
    have he := hq e (by simp)
    have h1 := full_step (e := e) h (by rintro rfl; simp at he) (by rintro rfl; simp at he) (by rintro rfl; simp at he)
    have h2 := ih h1 (fun x hx => hq x (by simp [hx]))
    simp only [TimerSt.run, callsOf_append]
    rw [← Nat.add_assoc]; exact h2

/-- How far the thread is from its next turn. -/
def TimerPc.rank : TimerPc → Nat
  | .new => 20 | .copying => 11 | .head => 10 | .sum => 9 | .asleep _ => 8 | .ready => 7 | .turn => 6 | .inside => 5
  | .counting => 4 | .ending => 3 | .dead => 0

/-- A bound for the number of steps to the end. -/
def TimerSt.todo (s : TimerSt) (n : Int) : Nat := 12 * (max 1 n - s.count).toNat + s.pc.rank

theorem todo_go {s : TimerSt} {b : Nat} {n : Int} (h : FullAt s b) (hn : s.limit = some n) (h1 : s.pc ≠ .new) (h2 : s.pc ≠ .dead)
    (h3 : ∀ u, s.pc = .asleep u → u ≤ s.now) : (s.step .go).1.todo n < s.todo n := by
  obtain ⟨iv, lim, now, pc, run, last, count, st, la⟩ := s
  simp only at hn; subst hn
  cases pc <;> simp only [TimerSt.step, TimerSt.go]
  all_goals repeat' split
  all_goals simp only [FullAt, TimerSt.todo, TimerPc.rank] at *
  all_goals simp at *
  all_goals omega

theorem go_not_new {s : TimerSt} (h : s.pc ≠ .new) : (s.step .go).1.pc ≠ .new := by
  simp only [TimerSt.step, TimerSt.go]
  repeat' split
  all_goals first | exact h | simp

/-- An undisturbed timer can always get to its end. -/
theorem can_finish {n : Int} : ∀ (k : Nat) {s : TimerSt} {b : Nat}, FullAt s b → s.limit = some n → s.pc ≠ .new → s.todo n ≤ k →
    ∃ es, Quiet es ∧ (s.run es).1.pc = .dead := by
  intro k
  induction k with
  | zero =>
    intro s b h hn hp hk
    refine ⟨[], by simp [Quiet], ?_⟩
    have : s.pc.rank = 0 := by unfold TimerSt.todo at hk; omega
    revert this; simp only [TimerSt.run]; cases s.pc <;> simp [TimerPc.rank]
  | succ k ih =>
    intro s b h hn hp hk
    by_cases hd : s.pc = .dead
    · exact ⟨[], by simp [Quiet], hd⟩
    · -- let the sleep end first
      have key : ∀ (d : Nat), (∀ u, s.pc = .asleep u → u ≤ s.now + d) → ∃ es, Quiet es ∧ (s.run es).1.pc = .dead := by
        intro d hu
        have h1 : FullAt (s.step (.tick d)).1 b := by
          have := full_step (e := .tick d) h (by simp) (by simp) (by simp); simpa [TimerSt.step, callsOf] using this
        have h2 := todo_go h1 hn hp hd hu
        have h3 := full_step (e := .go) h1 (by simp) (by simp) (by simp)
        have h4 : ((s.step (.tick d)).1.step .go).1.limit = some n := by rw [(timer_params _ _).2, (timer_params _ _).2, hn]
        have h5 : ((s.step (.tick d)).1.step .go).1.pc ≠ .new := by
          exact go_not_new hp
        have h6 : (s.step (.tick d)).1.todo n = s.todo n := rfl
        obtain ⟨es, h7, h8⟩ := ih h3 h4 h5 (by omega)
        refine ⟨.tick d :: .go :: es, ?_, by simpa [TimerSt.run] using h8⟩
        intro e he
        simp only [List.mem_cons] at he
        rcases he with rfl | rfl | he
        · exact .inr (.inr (.inr ⟨d, rfl⟩))
        · exact .inl rfl
        · exact h7 e he
      cases hs : s.pc with
      | asleep u => exact key (u - s.now).toNat (by intro u' hu'; rw [hs] at hu'; cases hu'; omega)
      | _ => exact key 0 (by intro u' hu'; rw [hs] at hu'; cases hu')

/-- After the only `start`, the thread is started or will be. -/
theorem launch_run {iv now : Int} {lim} (es : List TimerEv) (h1 : StartedOnce es) (h2 : es.count .start = 1) :
    let r := (TimerSt.init iv lim now).run es
    r.1.pc = .new → r.1.starting + r.1.launching = 1 := by
  have := once_run (s0 := TimerSt.init iv lim now) (ok := fun _ => True)
    (U := fun s os => Unstarted s 0) (I := fun s os => s.pc = .new → s.starting + s.launching = 1)
    ⟨rfl, rfl, rfl, rfl, rfl⟩
    (by
      intro s os e _ he h
      have := unstarted_step h he
      have h0 : callsOf (s.step e).2 = 0 := by have := this.none; omega
      rwa [h0] at this)
    (by
      intro s os h _
      simp [TimerSt.step, h.s0, h.l0])
    (by
      intro s os e _ he h
      by_cases hp : s.pc = .new
      case neg =>
        intro hn
        exfalso
        revert hn
        cases e with
        | start => exact absurd rfl he
        | go => exact go_not_new hp
        | _ =>
          simp only [TimerSt.step]
          repeat' split
          all_goals first | exact hp | simp
      have h := h hp
      intro hn
      cases e with
      | start => exact absurd rfl he
      | go => simpa [TimerSt.step, TimerSt.go, hp] using h
      | check =>
        simp only [TimerSt.step, hp, TimerPc.alive] at hn ⊢
        split
        · exact h
        · simp; omega
      | launch =>
        simp only [TimerSt.step, hp] at hn ⊢
        split
        · exact h
        · rename_i hl; simp [hl] at hn
      | fail => simpa [TimerSt.step, hp] using h
      | stop => exact h
      | tick d => exact h) es (fun _ _ => trivial) h1
  exact this.2 h2

end Verif
