import Verif.Proof.LogNet
/-!
# Lemmas for C140 under fair schedules
-/
namespace Verif

theorem mono_le {f : Nat → Nat} (mono : ∀ n, f n ≤ f (n + 1)) {a b : Nat} (h : a ≤ b) : f a ≤ f b := by
  obtain ⟨d, rfl⟩ := Nat.le.dest h
  clear h
  induction d with
  | zero => exact Nat.le_refl _
  | succ d ih => exact Nat.le_trans ih (mono _)

/-- What never falls, and rises at moments that come again and again while it is below `M`, reaches `M`. -/
theorem ratchet (f : Nat → Nat) (T : Nat → Prop) (M b : Nat) (mono : ∀ n, f n ≤ f (n + 1)) (adv : ∀ n, b ≤ n → T n → f n < M → f n < f (n + 1))
    (inf : ∀ n, ∃ m, n ≤ m ∧ T m) : ∃ n, b ≤ n ∧ ∀ n', n ≤ n' → M ≤ f n' := by
  suffices ∀ d b', b ≤ b' → M ≤ f b' + d → ∃ n, b' ≤ n ∧ M ≤ f n by
    obtain ⟨n, h1, h2⟩ := this M b (Nat.le_refl _) (by omega)
    exact ⟨n, h1, fun n' hn => Nat.le_trans h2 (mono_le mono hn)⟩
  intro d
  induction d with
  | zero => intro b' _ h; exact ⟨b', Nat.le_refl _, h⟩
  | succ d ih =>
    intro b' hb h
    obtain ⟨m, hm, ht⟩ := inf b'
    by_cases hM : M ≤ f m
    · exact ⟨m, hm, hM⟩
    · have h1 := adv m (by omega) ht (by omega)
      have h2 := mono_le mono hm
      obtain ⟨n, hn, hM⟩ := ih (m + 1) (by omega) (by omega)
      exact ⟨n, by omega, hM⟩

/-- How far the thread of a sender has come: four steps for each record. -/
def sendProgress (os : List SenderOut) (s : SenderSt) : Nat :=
  4 * (sentOf os).length + match s.pc with | .got _ => 1 | .checked _ => 2 | .sending _ _ _ => 3 | _ => 0

theorem progress_step {L : Lib} {fmt} {a ns given os} {s : SenderSt} (h : SenderAt L fmt a ns given (sentOf os) os s) (hg : ∀ r ∈ given, Forwardable L fmt r) (e : SenderEv) (hc : Calm [e]) :
    sendProgress os s ≤ sendProgress (os ++ (s.step L fmt e).2) (s.step L fmt e).1 ∧
    (e = .go → sendProgress os s < 4 * given.length → sendProgress os s < sendProgress (os ++ (s.step L fmt e).2) (s.step L fmt e).1) := by
  have hc := hc e (by simp)
  obtain ⟨built, sock, closed, addrs, nsock, queue, pc, names⟩ := s
  obtain ⟨h1, h2, h3, hna, h4, h5, h6, h7⟩ := h
  simp only at h1 h2 h3 h4 h6 h7
  subst h1 h2 h3
  have hin : ∀ r q, given.map some = (sentOf os).map some ++ some r :: q → Forwardable L fmt r := by
    intro r q hq
    have : some r ∈ given.map some := by rw [hq]; simp
    simp only [List.mem_map, Option.some.injEq] at this
    obtain ⟨r', hr', rfl⟩ := this
    exact hg r' hr'
  cases e with
  | handle r => simp [sendProgress, SenderSt.step]
  | rename N => simp [sendProgress, SenderSt.step]
  | build => exact hc.elim
  | connectClose => exact hc.elim
  | connectOpen a => exact hc.elim
  | closePut => exact hc.elim
  | closeSwap => exact hc.elim
  | go =>
    cases pc with
    | idle =>
      cases queue with
      | nil =>
        have : given.length = (sentOf os).length := by simpa using congrArg List.length h7
        simp [sendProgress, SenderSt.step, SenderSt.go, this]
      | cons x q =>
        cases x with
        | none =>
          exfalso
          have : (none : Option Fields) ∈ given.map some := by rw [h7]; simp
          simp at this
        | some r => simp [sendProgress, SenderSt.step, SenderSt.go]
    | got r => simp [sendProgress, SenderSt.step, SenderSt.go]
    | checked r =>
      obtain ⟨w, hw'⟩ := hin _ _ h7 names
      unfold messageFor at hw'
      cases hf : forwardFields fmt names r with
      | error e => rw [hf] at hw'; cases hw'
      | ok d =>
        rw [hf] at hw'
        simp only at hw'
        simp [sendProgress, SenderSt.step, SenderSt.go, hf, hw']
    | sending r k w =>
      obtain ⟨_, rfl, _⟩ := h7
      simp [sendProgress, SenderSt.step, SenderSt.go, h4, sentOf_append, sentOf]
      omega
    | finished => exact h7.elim
    | crashed =>
      exfalso
      obtain ⟨r, e, N, hN, _, h9, h10⟩ := h7
      obtain ⟨w, hw'⟩ := hin _ _ h10 N
      rw [h9] at hw'; cases hw'

/-- A server that got good messages and was not stopped goes on. -/
theorem logsrv_alive {lt} {filter : Bool} {levels : List Int} (es : List LogSrvEv) (h : ∀ m ∈ arrivedOf es, GoodMessage lt m) (hs : .stop ∉ es) :
    (LogSrvSt.run lt { filter, levels } es).1.alive = true ∧ (LogSrvSt.run lt { filter, levels } es).1.running = true := by
  induction es using snoc_induction with
  | h0 => exact ⟨rfl, rfl⟩
  | hs es e ih =>
    obtain ⟨i1, i2⟩ := ih (fun m hm => h m (by rw [arrivedOf_append]; simp [hm])) (fun hh => hs (by simp [hh]))
    have hno := logsrv_good (filter := filter) (levels := levels) _ h
    rw [logsrv_run_snoc] at hno ⊢
    generalize LogSrvSt.run lt { filter, levels } es = sr at i1 i2 hno
    obtain ⟨s, os⟩ := sr
    simp only at i1 i2 hno
    cases e with
    | arrive m => exact ⟨i1, i2⟩
    | setLevels l => exact ⟨i1, i2⟩
    | stop => exact absurd (by simp) hs
    | go =>
      simp only [LogSrvSt.step, LogSrvSt.go, i1, i2] at hno ⊢
      cases hi : s.inbox with
      | nil => simp [i1, i2]
      | cons m r =>
        simp only [hi] at hno ⊢
        cases hr : readRecord m with
        | error e => simp only [hr] at hno; exact absurd (by simp) (hno e)
        | ok d =>
          simp only [hr] at hno ⊢
          cases hfl : s.filter with
          | false => simp
          | true =>
            cases hb : levelBelow lt d (effectiveLevel s.levels) with
            | error e => simp only [hb, hfl] at hno; exact absurd (by simp) (hno e)
            | ok b => cases b <;> simp

theorem logsrv_reads_more {lt} {filter : Bool} {levels : List Int} (es : List LogSrvEv) (h : ∀ m ∈ arrivedOf es, GoodMessage lt m) (hs : .stop ∉ es)
    (hl : (readsOf (LogSrvSt.run lt { filter, levels } es).2).length < (arrivedOf es).length) :
    (readsOf ((LogSrvSt.run lt { filter, levels } es).1.step lt .go).2).length = 1 := by
  have ho := congrArg List.length (C55_order lt filter levels es h)
  obtain ⟨a1, a2⟩ := logsrv_alive (filter := filter) (levels := levels) es h hs
  have hno := logsrv_good (filter := filter) (levels := levels) (es ++ [.go]) (by rw [arrivedOf_append]; simpa [arrivedOf] using h)
  rw [logsrv_run_snoc] at hno
  generalize LogSrvSt.run lt { filter, levels } es = sr at a1 a2 ho hl hno
  obtain ⟨s, os⟩ := sr
  simp only [List.length_map, List.length_append] at a1 a2 ho hl hno ⊢
  simp only [LogSrvSt.step, LogSrvSt.go, a1, a2] at hno ⊢
  cases hi : s.inbox with
  | nil => rw [hi] at ho; simp at ho; omega
  | cons m r =>
    simp only [hi] at hno ⊢
    cases hr : readRecord m with
    | error e => simp only [hr] at hno; exact absurd (by simp) (hno e)
    | ok d =>
      simp only [hr] at hno ⊢
      cases hfl : s.filter with
      | false => simp [readsOf]
      | true =>
        cases hb : levelBelow lt d (effectiveLevel s.levels) with
        | error e => simp only [hb, hfl] at hno; exact absurd (by simp) (hno e)
        | ok b => cases b <;> simp [readsOf]

theorem fromProc_length {α : Type} (i : Nat) (l : List (Nat × α)) : (fromProc i l).length = (l.map (·.1)).count i := by
  induction l with
  | nil => rfl
  | cons x l ih =>
    by_cases h : x.1 = i
    · simp [fromProc, h] at ih ⊢; exact ih
    · simp [fromProc, h, List.count_cons] at ih ⊢; exact ih

theorem zip_take {α β : Type} {R : α → β → Prop} {x : List α} {y : List β} (h : Zip R x y) (n : Nat) : Zip R (x.take n) (y.take n) := by
  induction h generalizing n with
  | nil => simpa using Zip.nil
  | cons h _ ih =>
    cases n with
    | zero => simpa using Zip.nil
    | succ n => simpa using Zip.cons h (ih n)

theorem zip_length {α β : Type} {R : α → β → Prop} {x : List α} {y : List β} (h : Zip R x y) : x.length = y.length := by
  induction h with
  | nil => rfl
  | cons _ _ ih => simp [ih]

end Verif
