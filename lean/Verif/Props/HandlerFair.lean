import Verif.Props.LogHandler
/-!
# C53 for every fair schedule
-/
namespace Verif

/-- The first `n` events of a history of the handler without end. -/
def firstHandled (σ : Nat → HandlerEv) (n : Nat) : List HandlerEv := (List.range n).map σ

theorem firstHandled_succ (σ : Nat → HandlerEv) (n : Nat) : firstHandled σ (n + 1) = firstHandled σ n ++ [σ n] := by
  simp [firstHandled, List.range_succ]

/-- A history without end, as states and what was treated up to each. -/
structure Endless (E : LogEnv) (σ : Nat → HandlerEv) (st : Nat → HandlerSt) (ou : Nat → List LogRec) : Prop where
  next : ∀ n, st (n + 1) = ((st n).step E (σ n)).1
  more : ∀ n, ou (n + 1) = ou n ++ ((st n).step E (σ n)).2.map LogOut.record
  flush : ∀ n, σ n ≠ .flush
  none : ∀ n, (st n).flushes = []
  sorted : ∀ n, (st n).records.Pairwise fun a b => a.created ≤ b.created
  poll : ∀ n, ∃ m, n ≤ m ∧ σ m = .poll
  time : ∀ t : Int, ∃ n, t ≤ (st n).now

variable {E : LogEnv} {σ : Nat → HandlerEv} {st : Nat → HandlerSt} {ou : Nat → List LogRec}

theorem step_now (E : LogEnv) (s : HandlerSt) (e : HandlerEv) : s.now ≤ (s.step E e).1.now := by
  have hput : ∀ (s : HandlerSt) r, (s.put E r).1.now = s.now := fun s r => by
    obtain ⟨hs, o, h, _⟩ := put_spec E s r; rw [h]
  cases e with
  | tick d => simp only [HandlerSt.step]; omega
  | emit r => exact Int.le_refl _
  | flush => exact Int.le_refl _
  | poll =>
    simp only [HandlerSt.step, HandlerSt.pollStep]
    split
    · exact Int.le_refl _
    · split <;> exact Int.le_refl _
    · exact Int.le_refl _
    · rw [hput]; exact Int.le_refl _
    · split <;> exact Int.le_refl _
  | write i =>
    simp only [HandlerSt.step]
    split
    · exact Int.le_refl _
    · exact Int.le_refl _
    · rw [hput]; exact Int.le_refl _

namespace Endless

theorem now_le (h : Endless E σ st ou) {n m : Nat} (hnm : n ≤ m) : (st n).now ≤ (st m).now := by
  obtain ⟨d, rfl⟩ := Nat.le.dest hnm
  clear hnm
  induction d with
  | zero => exact Int.le_refl _
  | succ d ih => exact Int.le_trans ih (by rw [show n + (d + 1) = n + d + 1 from rfl, h.next]; exact step_now E _ _)

theorem ou_le (h : Endless E σ st ou) {n m : Nat} (hnm : n ≤ m) {r : LogRec} (hr : r ∈ ou n) : r ∈ ou m := by
  obtain ⟨d, rfl⟩ := Nat.le.dest hnm
  clear hnm
  induction d with
  | zero => exact hr
  | succ d ih => rw [show n + (d + 1) = n + d + 1 from rfl, h.more]; exact List.mem_append_left _ ih

/-- A step of anybody but the polling thread leaves that where it is, and takes no record away. -/
theorem other (h : Endless E σ st ou) {n : Nat} (hn : σ n ≠ .poll) :
    (st (n + 1)).poll = (st n).poll ∧ (st (n + 1)).delay = (st n).delay ∧ ∀ r ∈ (st n).records, r ∈ (st (n + 1)).records := by
  rw [h.next]
  have hf := h.flush n
  have h0 := h.none n
  cases he : σ n with
  | poll => exact absurd he hn
  | flush => exact absurd he hf
  | tick d => exact ⟨rfl, rfl, fun r hr => hr⟩
  | emit r => exact ⟨rfl, rfl, fun x hx => sort_mem.2 (List.mem_append_left _ hx)⟩
  | write i => simp only [HandlerSt.step, h0, List.getElem?_nil]; exact ⟨trivial, trivial, fun r hr => hr⟩

/-- The polling thread gets its next turn where it is. -/
theorem turn (h : Endless E σ st ou) (n : Nat) :
    ∃ m, n ≤ m ∧ σ m = .poll ∧ (st m).poll = (st n).poll ∧ (st m).delay = (st n).delay ∧ ∀ r ∈ (st n).records, r ∈ (st m).records := by
  obtain ⟨m, hm, hp⟩ := h.poll n
  obtain ⟨d, rfl⟩ := Nat.le.dest hm
  clear hm
  induction d generalizing n with
  | zero => exact ⟨n, Nat.le_refl _, hp, rfl, rfl, fun _ h => h⟩
  | succ d ih =>
    by_cases hn : σ n = .poll
    · exact ⟨n, Nat.le_refl _, hn, rfl, rfl, fun _ h => h⟩
    obtain ⟨h1, h2, h3⟩ := h.other hn
    obtain ⟨m, m1, m2, m3, m4, m5⟩ := ih (n + 1) (by rw [show n + 1 + d = n + (d + 1) by omega]; exact hp)
    exact ⟨m, by omega, m2, m3.trans h1, m4.trans h2, fun r hr => m5 r (h3 r hr)⟩

/-- What the polling thread holds is treated, and it comes back to its beginning. -/
theorem drain (h : Endless E σ st ou) : ∀ (l : List LogRec) (n : Nat), (st n).poll = .writing l →
    ∃ m, n ≤ m ∧ (st m).poll = .top ∧ ∀ r ∈ l, r ∈ ou m
  | [], n, hl => by
    obtain ⟨m, m1, m2, m3, -, -⟩ := h.turn n
    refine ⟨m + 1, by omega, ?_, by simp⟩
    rw [h.next, m2]; simp [HandlerSt.step, HandlerSt.pollStep, m3, hl]
  | x :: l, n, hl => by
    obtain ⟨m, m1, m2, m3, -, -⟩ := h.turn n
    obtain ⟨hs, o, p1, p2⟩ := put_spec E { st m with poll := .writing l } x
    have hst : (st m).step E (σ m) = ({ st m with poll := .writing l, headers := hs }, [o]) := by
      rw [m2]; simp only [HandlerSt.step, HandlerSt.pollStep, m3, hl]; exact p1
    obtain ⟨k, k1, k2, k3⟩ := h.drain l (m + 1) (by rw [h.next, hst])
    refine ⟨k, by omega, k2, fun r hr => ?_⟩
    rcases List.mem_cons.1 hr with rfl | hr
    · exact h.ou_le k1 (by rw [h.more, hst]; simp [p2])
    · exact k3 r hr

/-- A sleeping thread wakes up. -/
theorem wakes (h : Endless E σ st ou) {n : Nat} {t : Int} (hn : (st n).poll = .asleep t) : ∃ m, n ≤ m ∧ (st m).poll = .top := by
  have key : ∀ d, (st (n + d)).poll = .asleep t ∨ ∃ m, n ≤ m ∧ (st m).poll = .top := by
    intro d
    induction d with
    | zero => exact .inl hn
    | succ d ih =>
      rcases ih with ih | ih
      · by_cases hp : σ (n + d) = .poll
        · have := h.next (n + d)
          rw [hp] at this
          simp only [HandlerSt.step, HandlerSt.pollStep, ih] at this
          split at this
          · exact .inr ⟨n + d + 1, by omega, by rw [this]⟩
          · exact .inl (by rw [show n + (d + 1) = n + d + 1 from rfl, this]; exact ih)
        · exact .inl ((h.other hp).1.trans ih)
      · exact .inr ih
  obtain ⟨k, hk⟩ := h.time t
  rcases key k with hk' | hk'
  · obtain ⟨m, m1, m2, m3, -, -⟩ := h.turn (n + k)
    refine ⟨m + 1, by omega, ?_⟩
    have hle : t ≤ (st m).now := Int.le_trans hk (h.now_le (by omega))
    rw [h.next, m2]; simp [HandlerSt.step, HandlerSt.pollStep, m3, hk', hle]
  · exact hk'

/-- The polling thread always comes back to its beginning. -/
theorem top (h : Endless E σ st ou) (n : Nat) : ∃ m, n ≤ m ∧ (st m).poll = .top := by
  cases hp : (st n).poll with
  | top => exact ⟨n, Nat.le_refl _, hp⟩
  | writing l => obtain ⟨m, m1, m2, -⟩ := h.drain l n hp; exact ⟨m, m1, m2⟩
  | asleep t => exact h.wakes hp
  | limited lim =>
    obtain ⟨m, m1, m2, m3, -, -⟩ := h.turn n
    have hst := h.next m
    rw [m2] at hst
    simp only [HandlerSt.step, HandlerSt.pollStep, m3, hp] at hst
    split at hst
    · obtain ⟨k, k1, k2, -⟩ := h.drain _ (m + 1) (by rw [hst])
      exact ⟨k, by omega, k2⟩
    · obtain ⟨k, k1, k2⟩ := h.wakes (n := m + 1) (by rw [hst])
      exact ⟨k, by omega, k2⟩

theorem mem_takeWhile_sorted {lim : Int} {r : LogRec} : ∀ {l : List LogRec}, (l.Pairwise fun a b => a.created ≤ b.created) → r ∈ l → r.created < lim →
    r ∈ l.takeWhile fun x => x.created < lim
  | x :: l, hs, hr, hlt => by
    have hx : x.created < lim := by
      rcases List.mem_cons.1 hr with rfl | hr
      · exact hlt
      · have := (List.pairwise_cons.1 hs).1 r hr; omega
    rw [List.takeWhile_cons_of_pos (by simpa using hx)]
    rcases List.mem_cons.1 hr with rfl | hr
    · exact List.mem_cons_self
    · exact List.mem_cons_of_mem _ (mem_takeWhile_sorted (List.pairwise_cons.1 hs).2 hr hlt)

/-- A record in the list while the thread is at its beginning, late enough, is treated. -/
theorem taken (h : Endless E σ st ou) {n : Nat} {r : LogRec} (hp : (st n).poll = .top) (hr : r ∈ (st n).records) (hlt : r.created + (st n).delay < (st n).now) :
    ∃ m, n ≤ m ∧ r ∈ ou m := by
  obtain ⟨m, m1, m2, m3, m4, m5⟩ := h.turn n
  have hst : st (m + 1) = { st m with poll := .limited ((st m).now - (st m).delay) } := by
    rw [h.next, m2]; simp [HandlerSt.step, HandlerSt.pollStep, m3, hp]
  obtain ⟨k, k1, k2, k3, -, k5⟩ := h.turn (m + 1)
  have hrk : r ∈ (st k).records := k5 r (by rw [hst]; exact m5 r hr)
  have hlim : r.created < (st m).now - (st m).delay := by have := h.now_le m1; omega
  have hin := mem_takeWhile_sorted (h.sorted k) hrk hlim
  have hst' := h.next k
  rw [k2] at hst'
  simp only [HandlerSt.step, HandlerSt.pollStep, k3, hst] at hst'
  rw [if_pos (List.length_pos_of_mem hin)] at hst'
  obtain ⟨j, j1, -, j3⟩ := h.drain _ (k + 1) (by rw [hst'])
  exact ⟨j, by omega, j3 r hin⟩

end Endless

/-- Without `flush_records` nobody but the polling thread takes records away, and they stay sorted. -/
theorem handler_quiet (E : LogEnv) (now : Int) (hs) (es : List HandlerEv) (hf : .flush ∉ es) :
    ((HandlerSt.init now hs).run E es).1.flushes = [] ∧ ((HandlerSt.init now hs).run E es).1.delay = 200 ∧
    ((HandlerSt.init now hs).run E es).1.records.Pairwise fun a b => a.created ≤ b.created := by
  induction es using snoc_induction with
  | h0 => simp [HandlerSt.run, HandlerSt.init]
  | hs es e ih =>
    obtain ⟨i1, i2, i3⟩ := ih (fun h => hf (List.mem_append_left _ h))
    rw [handler_run_snoc]
    generalize ((HandlerSt.init now hs).run E es).1 = s at *
    cases e with
    | flush => simp at hf
    | tick d => exact ⟨i1, i2, i3⟩
    | emit r => exact ⟨i1, i2, sort_created _⟩
    | write i => simp only [HandlerSt.step, i1, List.getElem?_nil]; exact ⟨trivial, i2, i3⟩
    | poll =>
      simp only [HandlerSt.step, HandlerSt.pollStep]
      split
      · exact ⟨i1, i2, i3⟩
      · split <;> exact ⟨i1, i2, i3.sublist (List.dropWhile_sublist _)⟩
      · exact ⟨i1, i2, i3⟩
      · rename_i r rs _
        obtain ⟨x, o, p1, _⟩ := put_spec E { s with poll := .writing rs } r
        rw [p1]; exact ⟨i1, i2, i3⟩
      · split <;> exact ⟨i1, i2, i3⟩

/-- **C53** In every history without end in which the polling thread always gets another turn, the clock passes every time, and nobody calls `flush_records`: every record given to the handler is
treated sooner or later, and if it can be formatted its line is on the stream from then on. Other records may be given all the time, with any times of creation. -/
theorem C53_fair (E : LogEnv) (now : Int) (hs) (σ : Nat → HandlerEv) (hf : ∀ n, σ n ≠ .flush) (hp : ∀ n, ∃ m, n ≤ m ∧ σ m = .poll)
    (ht : ∀ t : Int, ∃ n, t ≤ ((HandlerSt.init now hs).run E (firstHandled σ n)).1.now) (k : Nat) (r : LogRec) (hr : σ k = .emit r) :
    ∃ n, ∀ n', n ≤ n' → r ∈ ((HandlerSt.init now hs).run E (firstHandled σ n')).2.map LogOut.record ∧
      (Writable E r → ∃ line, .wrote r line ∈ ((HandlerSt.init now hs).run E (firstHandled σ n')).2) := by
  have hnf : ∀ n, .flush ∉ firstHandled σ n := fun n hm => by
    simp only [firstHandled, List.mem_map] at hm
    obtain ⟨x, _, hx⟩ := hm
    exact hf x hx
  have h : Endless E σ (fun n => ((HandlerSt.init now hs).run E (firstHandled σ n)).1) (fun n => ((HandlerSt.init now hs).run E (firstHandled σ n)).2.map LogOut.record) :=
    { next := fun n => by rw [firstHandled_succ, handler_run_snoc]
      more := fun n => by rw [firstHandled_succ, handler_run_snoc, List.map_append]
      flush := hf
      none := fun n => (handler_quiet E now hs _ (hnf n)).1
      sorted := fun n => (handler_quiet E now hs _ (hnf n)).2.2
      poll := hp
      time := ht }
  suffices ∃ n, r ∈ ((HandlerSt.init now hs).run E (firstHandled σ n)).2.map LogOut.record by
    obtain ⟨n, hn⟩ := this
    refine ⟨n, fun n' hn' => ?_⟩
    have hm := h.ou_le hn' hn
    refine ⟨hm, fun hw => ?_⟩
    obtain ⟨o, ho, rfl⟩ := List.mem_map.1 hm
    obtain ⟨line, hl⟩ := C53_written E _ _ o ho hw
    exact ⟨line, hl ▸ ho⟩
  obtain ⟨n0, hn0⟩ := ht (r.created + 201)
  obtain ⟨n, n1, n2⟩ := h.top (max n0 (k + 1))
  have hem : r ∈ emittedOf (firstHandled σ n) := by
    simp only [emittedOf, firstHandled, List.mem_filterMap, List.mem_map, List.mem_range]
    exact ⟨σ k, ⟨k, by omega, rfl⟩, by rw [hr]⟩
  obtain ⟨q1, q2, -⟩ := handler_quiet E now hs _ (hnf n)
  have hc := (C53_conserved E now hs (firstHandled σ n)).mem_iff.2 hem
  rcases List.mem_append.1 hc with hc | hc
  · exact ⟨n, hc⟩
  · simp only [HandlerSt.pending, n2, q1, List.flatten_nil, List.append_nil] at hc
    obtain ⟨m, _, hm⟩ := h.taken (n := n) n2 hc (by
      have := h.now_le (show n0 ≤ n by omega)
      simp only [q2] at this ⊢; omega)
    exact ⟨m, hm⟩

namespace Ex

/-- Records come for ever, each older than the one before; the clock and the polling thread have one turn for each. -/
def olderAndOlder (n : Nat) : HandlerEv :=
  if n % 3 = 0 then .emit { uid := n, created := -n, level := 20, thread := 1 } else if n % 3 = 1 then .tick 50 else .poll

theorem older_time (t : Int) : ∃ n, t ≤ ((HandlerSt.init 0).run (logEnv false) (firstHandled olderAndOlder n)).1.now := by
  have key : ∀ k : Nat, (k : Int) ≤ ((HandlerSt.init 0).run (logEnv false) (firstHandled olderAndOlder (3 * k))).1.now := by
    intro k
    induction k with
    | zero => decide
    | succ k ih =>
      rw [show 3 * (k + 1) = 3 * k + 1 + 1 + 1 by omega, firstHandled_succ, handler_run_snoc, firstHandled_succ, handler_run_snoc, firstHandled_succ, handler_run_snoc]
      have h1 := step_now (logEnv false) ((HandlerSt.init 0).run (logEnv false) (firstHandled olderAndOlder (3 * k))).1 (olderAndOlder (3 * k))
      have h3 := fun s => step_now (logEnv false) s (olderAndOlder (3 * k + 1 + 1))
      have h2 : olderAndOlder (3 * k + 1) = .tick 50 := by unfold olderAndOlder; rw [if_neg (by omega), if_pos (by omega)]
      refine Int.le_trans ?_ (h3 _)
      rw [h2]
      simp only [HandlerSt.step]
      simp only [HandlerSt.step] at h1
      omega
  exact ⟨3 * t.toNat, Int.le_trans (by omega) (key t.toNat)⟩

example := C53_fair (logEnv false) 0 [] olderAndOlder (fun n => by unfold olderAndOlder; (repeat' split) <;> simp)
  (fun n => ⟨3 * n + 2, by omega, by unfold olderAndOlder; rw [if_neg (by omega), if_neg (by omega)]⟩) older_time 0 _ rfl
/-- After 20 rounds the eight records of the first time the thread took any are on the stream, the oldest first, and the first of the second time. -/
example : (((HandlerSt.init 0).run (logEnv false) (firstHandled olderAndOlder 60)).2.map fun o => o.record.uid) = [21, 18, 15, 12, 9, 6, 3, 0, 54] := by decide +kernel

end Ex
end Verif
