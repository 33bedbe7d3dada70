import Verif.Spec.LogHandler
import Verif.Proof.Registry
/-!
# Lemmas for the log handler
-/
namespace Verif

theorem handler_run_append (E : LogEnv) (s : HandlerSt) (a b : List HandlerEv) :
    s.run E (a ++ b) = (((s.run E a).1.run E b).1, (s.run E a).2 ++ ((s.run E a).1.run E b).2) := by
  induction a generalizing s with
  | nil => rfl
  | cons e es ih => simp only [List.cons_append, HandlerSt.run, ih, List.append_assoc]

theorem handler_run_snoc (E : LogEnv) (s : HandlerSt) (es : List HandlerEv) (e : HandlerEv) :
    s.run E (es ++ [e]) = (((s.run E es).1.step E e).1, (s.run E es).2 ++ ((s.run E es).1.step E e).2) := by
  rw [handler_run_append]; simp [HandlerSt.run]

theorem emittedOf_append (a b : List HandlerEv) : emittedOf (a ++ b) = emittedOf a ++ emittedOf b := List.filterMap_append

theorem put_spec (E : LogEnv) (s : HandlerSt) (r : LogRec) :
    ∃ hs o, s.put E r = ({ s with headers := hs }, [o]) ∧ o.record = r := by
  unfold HandlerSt.put
  split
  · exact ⟨_, _, rfl, rfl⟩
  · exact ⟨_, _, rfl, rfl⟩

theorem count_flatten_set {a r : LogRec} {rs : List LogRec} : ∀ {l : List (List LogRec)} {i : Nat}, l[i]? = some (r :: rs) →
    List.count a [r] + (l.set i rs).flatten.count a = l.flatten.count a
  | [], i, h => by simp at h
  | x :: l, 0, h => by
    simp only [List.getElem?_cons_zero, Option.some.injEq] at h
    subst h
    simp only [List.set_cons_zero, List.flatten_cons, List.count_append]
    rw [show r :: rs = [r] ++ rs from rfl, List.count_append]; omega
  | x :: l, i + 1, h => by
    simp only [List.getElem?_cons_succ] at h
    have := count_flatten_set (a := a) h
    simp only [List.set_cons_succ, List.flatten_cons, List.count_append]; omega

theorem flatten_eraseIdx : ∀ {l : List (List LogRec)} {i : Nat}, l[i]? = some [] → (l.eraseIdx i).flatten = l.flatten
  | [], i, h => by simp at h
  | x :: l, 0, h => by
    simp only [List.getElem?_cons_zero, Option.some.injEq] at h
    subst h; simp
  | x :: l, i + 1, h => by
    simp only [List.getElem?_cons_succ] at h
    simp [flatten_eraseIdx h]

theorem insert_count (a r : LogRec) : ∀ l, (insertCreated r l).count a = [r].count a + l.count a
  | [] => by simp [insertCreated]
  | x :: l => by
    simp only [insertCreated]
    split
    · rw [show r :: x :: l = [r] ++ x :: l from rfl, List.count_append]
    · have := insert_count a r l
      rw [List.count_cons, List.count_cons (l := l), this]; omega

theorem insert_mem {a r : LogRec} {l} : a ∈ insertCreated r l ↔ a = r ∨ a ∈ l := by
  rw [← List.count_pos_iff, insert_count, ← List.count_pos_iff (l := l)]
  by_cases h : a = r
  · subst h; simp; omega
  · have : List.count a [r] = 0 := by rw [List.count_eq_zero]; simpa using h
    simp [h, this]

theorem insert_sorted (r : LogRec) : ∀ {l : List LogRec}, l.Pairwise (fun a b => a.created ≤ b.created) →
    (insertCreated r l).Pairwise fun a b => a.created ≤ b.created
  | [], _ => by simp [insertCreated]
  | x :: l, h => by
    have h' := List.pairwise_cons.1 h
    simp only [insertCreated]
    split
    · rw [List.pairwise_cons]
      refine ⟨fun y hy => ?_, h⟩
      rcases List.mem_cons.1 hy with rfl | hy
      · omega
      · have := h'.1 y hy; omega
    · rw [List.pairwise_cons]
      refine ⟨fun y hy => ?_, insert_sorted r h'.2⟩
      rcases insert_mem.1 hy with rfl | hy
      · omega
      · exact h'.1 y hy

theorem insert_filter (c : Int) (r : LogRec) : ∀ {l : List LogRec}, l.Pairwise (fun a b => a.created ≤ b.created) →
    (insertCreated r l).filter (fun r => decide (r.created = c)) = (l ++ [r]).filter fun r => decide (r.created = c)
  | [], _ => rfl
  | x :: l, h => by
    have h' := List.pairwise_cons.1 h
    simp only [insertCreated]
    split
    · rename_i hlt
      by_cases hc : r.created = c
      · have h0 : (x :: l).filter (fun r => decide (r.created = c)) = [] := by
          rw [List.filter_eq_nil_iff]
          intro y hy
          simp only [decide_eq_true_eq]
          rcases List.mem_cons.1 hy with rfl | hy
          · omega
          · have := h'.1 y hy; omega
        rw [List.filter_append, h0]
        rw [List.filter_cons, if_pos (by simpa using hc), h0]
        simp [hc]
      · rw [List.filter_append, List.filter_cons, if_neg (by simpa using hc)]
        simp [hc]
    · rw [List.cons_append, List.filter_cons, insert_filter c r h'.2, List.filter_cons (x := x)]

theorem sort_snoc (l : List LogRec) (r : LogRec) : sortCreated (l ++ [r]) = insertCreated r (sortCreated l) := by
  unfold sortCreated; rw [List.foldl_append]; rfl

theorem sort_count (a : LogRec) (l : List LogRec) : (sortCreated l).count a = l.count a := by
  induction l using snoc_induction with
  | h0 => rfl
  | hs l r ih => rw [sort_snoc, insert_count, List.count_append, ih]; omega

theorem sort_mem {a : LogRec} {l : List LogRec} : a ∈ sortCreated l ↔ a ∈ l := by
  rw [← List.count_pos_iff, sort_count, List.count_pos_iff]

theorem sort_created (l : List LogRec) : (sortCreated l).Pairwise fun a b => a.created ≤ b.created := by
  induction l using snoc_induction with
  | h0 => exact List.Pairwise.nil
  | hs l r ih => rw [sort_snoc]; exact insert_sorted r ih

theorem sort_filter (c : Int) (l : List LogRec) :
    (sortCreated l).filter (fun r => r.created = c) = l.filter fun r => r.created = c := by
  induction l using snoc_induction with
  | h0 => rfl
  | hs l r ih => rw [sort_snoc, insert_filter c r (sort_created l), List.filter_append, ih, List.filter_append]

/-- Nothing is lost and nothing duplicated by any step. -/
theorem handler_step_count (E : LogEnv) (s : HandlerSt) (e : HandlerEv) (a : LogRec) :
    ((s.step E e).2.map LogOut.record).count a + (s.step E e).1.pending.count a = s.pending.count a + (emittedOf [e]).count a := by
  cases e with
  | tick d => simp [HandlerSt.step, HandlerSt.pending, emittedOf]
  | emit r =>
    simp only [HandlerSt.step, HandlerSt.pending, emittedOf, List.count_append, List.map_nil, List.count_nil]
    rw [sort_count, List.count_append]
    simp only [List.filterMap_cons, List.filterMap_nil]
    omega
  | flush =>
    simp only [HandlerSt.step, HandlerSt.pending, emittedOf, List.count_append, List.flatten_append, List.flatten_cons, List.flatten_nil]
    simp; omega
  | poll =>
    simp only [HandlerSt.step, HandlerSt.pollStep]
    split
    · rename_i hp; simp [HandlerSt.pending, hp, emittedOf]
    · rename_i lim hp
      have hc := congrArg (List.count a) (List.takeWhile_append_dropWhile (p := fun r : LogRec => decide (r.created < lim)) (l := s.records))
      rw [List.count_append] at hc
      split
      · simp only [HandlerSt.pending, hp, emittedOf, List.count_append]
        simp; omega
      · rename_i hl
        have h0 : (s.records.takeWhile fun r => decide (r.created < lim)) = [] := by
          apply List.eq_nil_of_length_eq_zero; omega
        rw [h0] at hc
        simp only [HandlerSt.pending, hp, emittedOf, List.count_append]
        simp at hc ⊢; omega
    · rename_i hp; simp [HandlerSt.pending, hp, emittedOf]
    · rename_i r rs hp
      obtain ⟨hs, o, h1, h2⟩ := put_spec E { s with poll := .writing rs } r
      rw [h1]
      simp only [HandlerSt.pending, hp, emittedOf, List.count_append, List.map_cons, List.map_nil, h2]
      rw [show r :: rs = [r] ++ rs from rfl, List.count_append]
      simp; omega
    · rename_i t hp
      split <;> simp [HandlerSt.pending, hp, emittedOf]
  | write i =>
    simp only [HandlerSt.step]
    split
    · simp [emittedOf]
    · rename_i h; simp [HandlerSt.pending, flatten_eraseIdx h, emittedOf]
    · rename_i r rs h
      obtain ⟨hs, o, h1, h2⟩ := put_spec E { s with flushes := s.flushes.set i rs } r
      rw [h1]
      have := count_flatten_set (a := a) h
      simp only [HandlerSt.pending, emittedOf, List.count_append, List.map_cons, List.map_nil, h2]
      simp only [List.filterMap_cons, List.filterMap_nil, List.count_nil]
      omega

theorem handler_run_count (E : LogEnv) (s : HandlerSt) (es : List HandlerEv) (a : LogRec) :
    ((s.run E es).2.map LogOut.record).count a + (s.run E es).1.pending.count a = s.pending.count a + (emittedOf es).count a := by
  induction es generalizing s with
  | nil => simp [HandlerSt.run, emittedOf]
  | cons e es ih =>
    have h1 := handler_step_count E s e a
    have h2 := ih (s.step E e).1
    rw [show e :: es = [e] ++ es from rfl, emittedOf_append]
    simp only [List.cons_append, List.nil_append, HandlerSt.run, List.map_append, List.count_append]
    omega

/-! ## Order -/

theorem takeWhile_lt {lim : Int} : ∀ {l : List LogRec} {r}, r ∈ l.takeWhile (fun r => decide (r.created < lim)) → r.created < lim
  | [], r, h => by simp at h
  | x :: l, r, h => by
    rw [List.takeWhile_cons] at h
    split at h
    · rename_i hx
      rcases List.mem_cons.1 h with h | h
      · subst h; simpa using hx
      · exact takeWhile_lt h
    · simp at h

theorem dropWhile_ge {lim : Int} : ∀ {l : List LogRec}, l.Pairwise (fun a b => a.created ≤ b.created) →
    ∀ {r}, r ∈ l.dropWhile (fun r => decide (r.created < lim)) → lim ≤ r.created
  | [], _, r, h => by simp at h
  | x :: l, hl, r, h => by
    rw [List.pairwise_cons] at hl
    rw [List.dropWhile_cons] at h
    split at h
    · exact dropWhile_ge hl.2 h
    · rename_i hx
      simp only [decide_eq_true_eq] at hx
      rcases List.mem_cons.1 h with h | h
      · subst h; omega
      · have := hl.1 r h; omega

/-- What holds while nobody flushes and all records come in time; `W` are the records taken out so far. -/
structure OrderAt (d : Int) (arrived : List LogRec) (W : List LogRec) (s : HandlerSt) (lim : Int) : Prop where
  delay : s.delay = d
  flushes : s.flushes = []
  sorted : W.Pairwise fun a b => a.created ≤ b.created
  recs : s.records.Pairwise fun a b => a.created ≤ b.created
  below : ∀ r ∈ W, r.created < lim
  above : ∀ r ∈ s.records, lim ≤ r.created
  past : lim ≤ s.now - d
  poll : ∀ l, s.poll = .limited l → lim ≤ l ∧ l ≤ s.now - d
  same : ∀ c, (W ++ s.records).filter (fun r => decide (r.created = c)) = arrived.filter fun r => decide (r.created = c)

/-- records taken out: those treated, then those the polling thread holds -/
def takenOut (os : List LogOut) (s : HandlerSt) : List LogRec :=
  os.map LogOut.record ++ (match s.poll with | .writing l => l | _ => [])

theorem order_step {E : LogEnv} {d arrived os s lim} (e : HandlerEv) (h : OrderAt d arrived (takenOut os s) s lim)
    (hf : e ≠ .flush) (ht : ∀ r, e = .emit r → s.now ≤ r.created + d) :
    ∃ lim', OrderAt d (arrived ++ emittedOf [e]) (takenOut (os ++ (s.step E e).2) (s.step E e).1) (s.step E e).1 lim' := by
  obtain ⟨now, delay, records, poll, flushes, headers⟩ := s
  obtain ⟨h1, h2, h3, h4, h5, h6, h7, h8, h9⟩ := h
  simp only at h1 h2 h4 h6 h7 h8
  subst h1 h2
  cases e with
  | flush => exact absurd rfl hf
  | tick k =>
    refine ⟨lim, rfl, rfl, ?_, h4, ?_, h6, ?_, ?_, ?_⟩
    · simpa [HandlerSt.step, takenOut] using h3
    · simpa [HandlerSt.step, takenOut] using h5
    · simp only [HandlerSt.step]; omega
    · intro l hl; have := h8 l hl; simp only [HandlerSt.step]; omega
    · simpa [HandlerSt.step, takenOut, emittedOf] using h9
  | write i =>
    refine ⟨lim, rfl, rfl, ?_, h4, ?_, h6, h7, h8, ?_⟩
    · simpa [HandlerSt.step, takenOut] using h3
    · simpa [HandlerSt.step, takenOut] using h5
    · simpa [HandlerSt.step, takenOut, emittedOf] using h9
  | emit r =>
    have htr := ht r rfl
    simp only at htr
    refine ⟨lim, rfl, rfl, ?_, sort_created _, ?_, ?_, h7, h8, ?_⟩
    · simpa [HandlerSt.step, takenOut] using h3
    · simpa [HandlerSt.step, takenOut] using h5
    · intro x hx
      simp only [HandlerSt.step, sort_mem, List.mem_append, List.mem_singleton] at hx
      rcases hx with hx | hx
      · exact h6 x hx
      · subst hx; omega
    · intro c
      have := h9 c
      simp only [HandlerSt.step, takenOut, List.append_nil, List.filter_append, sort_filter] at this ⊢
      simp only [emittedOf, List.filterMap_cons, List.filterMap_nil]
      rw [← List.append_assoc, this]
  | poll =>
    simp only [HandlerSt.step, HandlerSt.pollStep]
    cases poll with
    | top =>
      refine ⟨lim, rfl, rfl, ?_, h4, ?_, h6, h7, ?_, ?_⟩
      · simpa [takenOut] using h3
      · simpa [takenOut] using h5
      · intro l hl; simp only [PollPc.limited.injEq] at hl; subst hl; exact ⟨h7, Int.le_refl _⟩
      · simpa [takenOut, emittedOf] using h9
    | asleep t =>
      simp only
      split
      · refine ⟨lim, rfl, rfl, ?_, h4, ?_, h6, h7, ?_, ?_⟩
        · simpa [takenOut] using h3
        · simpa [takenOut] using h5
        · intro l hl; cases hl
        · simpa [takenOut, emittedOf] using h9
      · refine ⟨lim, rfl, rfl, ?_, h4, ?_, h6, h7, ?_, ?_⟩
        · simpa [takenOut] using h3
        · simpa [takenOut] using h5
        · intro l hl; cases hl
        · simpa [takenOut, emittedOf] using h9
    | writing l =>
      cases l with
      | nil =>
        refine ⟨lim, rfl, rfl, ?_, h4, ?_, h6, h7, ?_, ?_⟩
        · simpa [takenOut] using h3
        · simpa [takenOut] using h5
        · intro l hl; cases hl
        · simpa [takenOut, emittedOf] using h9
      | cons r rs =>
        simp only
        obtain ⟨hs, o, e1, e2⟩ := put_spec E { now := now, delay := delay, records := records, poll := .writing rs, flushes := [], headers := headers } r
        rw [e1]
        refine ⟨lim, rfl, rfl, ?_, h4, ?_, h6, h7, ?_, ?_⟩
        · simpa [takenOut, e2] using h3
        · simpa [takenOut, e2] using h5
        · intro l hl; cases hl
        · simpa [takenOut, emittedOf, e2] using h9
    | limited L =>
      obtain ⟨hl1, hl2⟩ := h8 L rfl
      simp only
      have hsplit := List.takeWhile_append_dropWhile (p := fun r : LogRec => decide (r.created < L)) (l := records)
      have hge := fun r hr => dropWhile_ge (lim := L) h4 (r := r) hr
      simp only [takenOut, List.append_nil] at h3 h5 h9
      split
      · refine ⟨L, rfl, rfl, ?_, h4.sublist (List.dropWhile_sublist _), ?_, hge, hl2, ?_, ?_⟩
        · simp only [takenOut, List.append_nil]
          rw [List.pairwise_append]
          refine ⟨h3, h4.sublist (List.takeWhile_sublist _), ?_⟩
          intro a ha b hb
          have := h5 a ha
          have := h6 b ((List.takeWhile_sublist _).subset hb)
          omega
        · intro r hr
          simp only [takenOut, List.append_nil] at hr
          rcases List.mem_append.1 hr with hr | hr
          · have := h5 r hr; omega
          · exact takeWhile_lt hr
        · intro l hl; cases hl
        · intro c
          simp only [takenOut, List.append_nil, List.append_assoc, hsplit]
          simpa [emittedOf] using h9 c
      · rename_i hlen
        have h0 : (records.takeWhile fun r => decide (r.created < L)) = [] := by
          apply List.eq_nil_of_length_eq_zero; omega
        rw [h0, List.nil_append] at hsplit
        refine ⟨L, rfl, rfl, ?_, h4.sublist (List.dropWhile_sublist _), ?_, hge, hl2, ?_, ?_⟩
        · simpa [takenOut] using h3
        · intro r hr
          simp only [takenOut, List.append_nil] at hr
          have := h5 r hr; omega
        · intro l hl; cases hl
        · intro c
          rw [hsplit]
          simpa [takenOut, emittedOf] using h9 c

theorem inTime_append {d : Int} : ∀ {now : Int} {a b : List HandlerEv}, InTime d now (a ++ b) → InTime d now a
  | _, [], _, _ => trivial
  | _, e :: a, b, h => by
    cases e with
    | emit r => exact ⟨h.1, inTime_append h.2⟩
    | tick k => exact inTime_append (a := a) (b := b) h
    | poll => exact inTime_append (a := a) (b := b) h
    | flush => exact inTime_append (a := a) (b := b) h
    | write i => exact inTime_append (a := a) (b := b) h

theorem handler_step_now (E : LogEnv) (s : HandlerSt) (e : HandlerEv) :
    (s.step E e).1.now = match e with | .tick k => s.now + k | _ => s.now := by
  cases e with
  | poll =>
    simp only [HandlerSt.step, HandlerSt.pollStep]
    split
    · rfl
    · split <;> rfl
    · rfl
    · rename_i r rs _
      obtain ⟨hs, o, h1, _⟩ := put_spec E { s with poll := .writing rs } r
      rw [h1]
    · split <;> rfl
  | write i =>
    simp only [HandlerSt.step]
    split
    · rfl
    · rfl
    · rename_i r rs _
      obtain ⟨hs, o, h1, _⟩ := put_spec E { s with flushes := s.flushes.set i rs } r
      rw [h1]
  | _ => rfl

theorem inTime_snoc {E : LogEnv} {d : Int} {r : LogRec} : ∀ {s : HandlerSt} {a : List HandlerEv}, InTime d s.now (a ++ [.emit r]) →
    (s.run E a).1.now ≤ r.created + d
  | s, [], h => h.1
  | s, e :: a, h => by
    simp only [HandlerSt.run]
    refine inTime_snoc (s := (s.step E e).1) (a := a) ?_
    rw [handler_step_now]
    cases e with
    | emit r => exact h.2
    | tick k => exact h
    | poll => exact h
    | flush => exact h
    | write i => exact h

theorem order_run (E : LogEnv) (now : Int) (hs) (es : List HandlerEv) (hf : .flush ∉ es) (ht : InTime 200 now es) :
    ∃ lim, OrderAt 200 (emittedOf es) (takenOut ((HandlerSt.init now hs).run E es).2 ((HandlerSt.init now hs).run E es).1)
      ((HandlerSt.init now hs).run E es).1 lim := by
  induction es using snoc_induction with
  | h0 =>
    refine ⟨now - 200, rfl, rfl, ?_, ?_, ?_, ?_, Int.le_refl _, ?_, ?_⟩ <;> simp [HandlerSt.init, HandlerSt.run, takenOut, emittedOf]
  | hs es e ih =>
    obtain ⟨lim, h⟩ := ih (fun h => hf (by simp [h])) (inTime_append ht)
    rw [handler_run_snoc, emittedOf_append]
    refine order_step e h (fun h => hf (by simp [h])) ?_
    rintro r rfl
    exact inTime_snoc ht

end Verif
