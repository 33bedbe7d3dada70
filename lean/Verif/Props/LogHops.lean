import Verif.Proof.LogHops
/-!
# C141, C142: records that pass through several log servers
-/
namespace Verif

/-- **C142 exact** A plain record is handled in one process after the other along the senders, up to the first server whose level is above its own, and
nowhere else. -/
theorem C142_exact (L : Lib) (fmt lt) (P : Nat → LogProc) (n : Nat) (i : Nat) (r : Fields) (h : PlainRecord fmt r) (l : Int) (hl : r.get? "levelno" = some (.int l)) :
    (trail L fmt lt P n i r).map (·.1) = route P l n i := by
  induction n generalizing i r with
  | zero => rfl
  | succ n ih =>
    have hp := hop_plain (L := L) (lt := lt) (P := P) (i := i) h hl
    simp only [trail, route]
    cases hn : (P i).next with
    | none => rw [hn] at hp; simp only at hp; rw [hp]; rfl
    | some j =>
      rw [hn] at hp
      obtain ⟨d, h1, h2, h3, h4⟩ := hp
      rw [h4]
      by_cases hb : (P j).filter = true ∧ l < effectiveLevel (P j).levels
      · simp only [if_pos hb]; rfl
      · simp only [if_neg hb, List.map_cons, ih j d h2 h3]

/-- **C141 partial** However many log servers a plain record passes through, it says the same at each: the message is formatted once (though the text may
hold signs that look like a format), everything else is as it was logged, but for the names added on the way. -/
theorem C141_partial (L : Lib) (fmt lt) (P : Nat → LogProc) (n : Nat) (i : Nat) (r : Fields) (h : PlainRecord fmt r) (l : Int) (hl : r.get? "levelno" = some (.int l)) :
    ∀ jd ∈ trail L fmt lt P n i r, SaysTheSame fmt r jd.2 := by
  induction n generalizing i r with
  | zero => simp [trail]
  | succ n ih =>
    have hp := hop_plain (L := L) (lt := lt) (P := P) (i := i) h hl
    intro jd hm
    simp only [trail] at hm
    cases hn : (P i).next with
    | none => rw [hn] at hp; simp only at hp; rw [hp] at hm; cases hm
    | some j =>
      rw [hn] at hp
      obtain ⟨d, h1, h2, h3, h4⟩ := hp
      rw [h4] at hm
      by_cases hb : (P j).filter = true ∧ l < effectiveLevel (P j).levels
      · simp only [if_pos hb] at hm; cases hm
      · simp only [if_neg hb, List.mem_cons] at hm
        rcases hm with rfl | hm
        · exact says_of_arrived h1
        · exact says_trans (says_of_arrived h1) (ih j d h2 h3 jd hm)

/-- **C141** The names a record carries are those of the last process that forwarded it. The thread name is the one this process has for the thread id of the
record, or else the name the logging module gave. -/
theorem C141_labels (L : Lib) (fmt lt) (P : Nat → LogProc) (n : Nat) (i : Nat) (r : Fields) (h : PlainRecord fmt r) (l : Int) (hl : r.get? "levelno" = some (.int l))
    (t : List (Nat × Fields)) (j : Nat) (d : Fields) (ht : t ++ [(j, d)] <+: trail L fmt lt P n i r) :
    let q := (t.map (·.1)).getLast?.getD i
    d.get? "host_name" = some (.str (P q).names.host) ∧
    (∀ p, (P q).names.process = some p → d.get? "process_name" = some (.str p)) ∧
    ∀ k, r.get? "thread" = some (.int k) →
      (∀ s, (P q).names.threads.get? k = some s → d.get? "thread_name" = some (.str s)) ∧
      (∀ v, (P q).names.threads.get? k = none → r.get? "threadName" = some v → d.get? "thread_name" = some v) := by
  induction n generalizing i r t with
  | zero => have := ht.length_le; simp [trail] at this
  | succ n ih =>
    have hp := hop_plain (L := L) (lt := lt) (P := P) (i := i) h hl
    simp only [trail] at ht
    cases hn : (P i).next with
    | none => rw [hn] at hp; simp only at hp; rw [hp] at ht; have := ht.length_le; simp at this
    | some j' =>
      rw [hn] at hp
      obtain ⟨d', h1, h2, h3, h4⟩ := hp
      rw [h4] at ht
      by_cases hb : (P j').filter = true ∧ l < effectiveLevel (P j').levels
      · simp only [if_pos hb] at ht; have := ht.length_le; simp at this
      · simp only [if_neg hb] at ht
        cases t with
        | nil =>
          simp only [List.nil_append, List.cons_prefix_cons, Prod.mk.injEq] at ht
          obtain ⟨⟨rfl, rfl⟩, _⟩ := ht
          exact ⟨h1.host, h1.process, fun k hk => ⟨fun s hs => h1.thread k s hk hs, fun v hs hv => h1.threadName k v hk hs hv⟩⟩
        | cons x t =>
          simp only [List.cons_append, List.cons_prefix_cons] at ht
          obtain ⟨rfl, ht⟩ := ht
          obtain ⟨g1, g2, g3⟩ := ih j' d' h2 h3 t ht
          have hq : (((j', d') :: t).map (·.1)).getLast?.getD i = (t.map (·.1)).getLast?.getD j' := by
            simp only [List.map_cons, List.getLast?_cons, Option.getD_some]
          rw [hq]
          refine ⟨g1, g2, fun k hk => ?_⟩
          obtain ⟨e1, e2⟩ := g3 k (h1.same _ _ (by decide) (by decide) (by decide) (by decide) (by decide) hk)
          exact ⟨e1, fun v hs hv => e2 v hs (h1.same _ _ (by decide) (by decide) (by decide) (by decide) (by decide) hv)⟩

/-- **C141 fails** from the second server on: a record logged in process `i`, forwarded to the server of `j` and from there to the server of `k`, is
handled in `k` as one of the process `j`, on the host of `j`. -/
theorem C141_fails (L : Lib) (fmt lt) (P : Nat → LogProc) (i j k : Nat) (r : Fields) (h : PlainRecord fmt r) (l : Int) (hl : r.get? "levelno" = some (.int l))
    (hij : (P i).next = some j) (hjk : (P j).next = some k) (fj : effectiveLevel (P j).levels ≤ l) (fk : effectiveLevel (P k).levels ≤ l)
    (p : String) (hp : (P j).names.process = some p) :
    ∃ d₁ d₂, trail L fmt lt P 2 i r = [(j, d₁), (k, d₂)] ∧ d₂.get? "process_name" = some (.str p) ∧ d₂.get? "host_name" = some (.str (P j).names.host) := by
  have he := C142_exact L fmt lt P 2 i r h l hl
  simp only [route, hij, hjk] at he
  rw [if_neg (by omega), if_neg (by omega)] at he
  match ht : trail L fmt lt P 2 i r, he with
  | [(a, d₁), (b, d₂)], he =>
    simp only [List.map_cons, List.map_nil, List.cons.injEq, and_true] at he
    obtain ⟨rfl, rfl⟩ := he
    obtain ⟨g1, g2, _⟩ := C141_labels L fmt lt P 2 i r h l hl [(a, d₁)] b d₂ (by rw [ht]; exact List.prefix_refl _)
    exact ⟨d₁, d₂, rfl, g2 p hp, g1⟩

/-- **C142 partial** If the senders lead from process to process without coming back (some number falls from each to the next), a record is handled a
bounded number of times, whatever it holds, and nowhere twice. -/
theorem C142_partial (L : Lib) (fmt lt) (P : Nat → LogProc) (rank : Nat → Nat) (hr : ∀ i j, (P i).next = some j → rank j < rank i) (n : Nat) (i : Nat) (r : Fields) :
    (trail L fmt lt P n i r).length ≤ rank i ∧ (i :: (trail L fmt lt P n i r).map (·.1)).Nodup := by
  have key : ∀ n i r, (trail L fmt lt P n i r).length ≤ rank i ∧ (∀ jd ∈ trail L fmt lt P n i r, rank jd.1 < rank i) ∧ ((trail L fmt lt P n i r).map (·.1)).Nodup := by
    intro n
    induction n with
    | zero => intro i r; simp [trail]
    | succ n ih =>
      intro i r
      simp only [trail]
      cases ho : hop L fmt lt P i r with
      | handled j d =>
        have hn : rank j < rank i := by
          refine hr i j ?_
          unfold hop at ho
          split at ho
          · cases ho
          · rename_i j' hj'
            repeat' split at ho
            all_goals first | (cases ho; exact hj') | cases ho
        obtain ⟨h1, h2, h3⟩ := ih j d
        refine ⟨by simp only [List.length_cons]; omega, ?_, ?_⟩
        · intro jd hm
          rcases List.mem_cons.mp hm with rfl | hm
          · exact hn
          · exact Nat.lt_trans (h2 jd hm) hn
        · simp only [List.map_cons, List.nodup_cons]
          refine ⟨?_, h3⟩
          intro hm
          obtain ⟨jd, hm, he⟩ := List.mem_map.mp hm
          have := h2 jd hm
          rw [he] at this
          omega
      | _ => simp
  obtain ⟨h1, h2, h3⟩ := key n i r
  refine ⟨h1, List.nodup_cons.mpr ⟨?_, h3⟩⟩
  intro hm
  obtain ⟨jd, hm, he⟩ := List.mem_map.mp hm
  have := h2 jd hm
  rw [he] at this
  omega

/-- The rest of a route is the route from where it is. -/
theorem route_cut (P : Nat → LogProc) (l : Int) : ∀ (n i : Nat) (a : List Nat) (j : Nat) (b : List Nat), route P l n i = a ++ j :: b →
    ∀ m, route P l (a.length + 1 + m) i = a ++ j :: route P l m j
  | 0, i, a, j, b, h => by simp [route] at h
  | n + 1, i, a, j, b, h => by
    intro m
    rw [show a.length + 1 + m = (a.length + m) + 1 by omega]
    simp only [route] at h ⊢
    split at h
    · simp at h
    · split at h
      · simp at h
      · rename_i k hk hb
        cases a with
        | nil =>
          simp only [List.nil_append, List.cons.injEq] at h
          obtain ⟨rfl, _⟩ := h
          rw [if_neg hb]; simp
        | cons x a =>
          simp only [List.cons_append, List.cons.injEq] at h
          obtain ⟨rfl, h⟩ := h
          have := route_cut P l n k a j b h m
          rw [if_neg hb, show (k :: a).length + m = a.length + 1 + m by simp, this]
          rfl

/-- **C142 fails** where the senders lead back: a record that comes back to a process once is forwarded for ever. (`C142_self`: a process whose sender is
connected to its own server.) -/
theorem C142_fails (L : Lib) (fmt lt) (P : Nat → LogProc) (i m : Nat) (r : Fields) (h : PlainRecord fmt r) (l : Int) (hl : r.get? "levelno" = some (.int l))
    (hback : i ∈ (trail L fmt lt P m i r).map (·.1)) : ∀ n, (trail L fmt lt P n i r).length = n := by
  rw [C142_exact L fmt lt P m i r h l hl] at hback
  obtain ⟨a, b, hab⟩ := List.append_of_mem hback
  have hc := route_cut P l m i a i b hab
  have long : ∀ k, ∃ n, k ≤ (route P l n i).length := by
    intro k
    induction k with
    | zero => exact ⟨0, Nat.zero_le _⟩
    | succ k ih =>
      obtain ⟨n, hn⟩ := ih
      refine ⟨a.length + 1 + n, ?_⟩
      rw [hc n]
      simp only [List.length_append, List.length_cons]
      omega
  have short : ∀ n i, (route P l n i).length ≤ n := by
    intro n
    induction n with
    | zero => intro i; simp [route]
    | succ n ih =>
      intro i
      simp only [route]
      split
      · simp
      · split
        · simp
        · rename_i j _ _; have := ih j; simp only [List.length_cons]; omega
  have stop : ∀ n i m, (route P l n i).length < n → (route P l m i).length < n := by
    intro n
    induction n with
    | zero => intro i m hh; omega
    | succ n ih =>
      intro i m hh
      cases m with
      | zero => simp [route]
      | succ m =>
        simp only [route] at hh ⊢
        split
        · simp
        · rename_i j hj
          simp only [hj] at hh
          split
          · simp
          · rename_i hb
            rw [if_neg hb] at hh
            have := ih j m (by simpa using hh)
            simp only [List.length_cons]; omega
  intro n
  have e : (trail L fmt lt P n i r).length = (route P l n i).length := by rw [← C142_exact L fmt lt P n i r h l hl, List.length_map]
  rw [e]
  by_cases hlt : (route P l n i).length < n
  · obtain ⟨m', hm'⟩ := long n
    have := stop n i m' hlt
    omega
  · have := short n i; omega

/-- **C142 fails** A process that connects its sender to the address of its own log server (`set_logger_address(get_logger_address())` after
`start_log_server()`) handles each of its records again and again. -/
theorem C142_self (L : Lib) (fmt lt) (P : Nat → LogProc) (i : Nat) (r : Fields) (h : PlainRecord fmt r) (l : Int) (hl : r.get? "levelno" = some (.int l))
    (hi : (P i).next = some i) (hf : effectiveLevel (P i).levels ≤ l) :
    ∀ n, (trail L fmt lt P n i r).map (·.1) = List.replicate n i := by
  intro n
  rw [C142_exact L fmt lt P n i r h l hl]
  induction n with
  | zero => rfl
  | succ n ih =>
    simp only [route, hi]
    rw [if_neg (by omega), ih, List.replicate_succ]

end Verif

namespace Verif.Ex
open Verif

/-- Process 2 logs to process 1, process 1 to process 0; process 3 logs to itself; 4 and 5 log to each other. -/
def family : Nat → LogProc
  | 0 => { names := { host := "h0", process := some "main", threads := [] }, levels := [0, 20] }
  | 1 => { names := { host := "h1", process := some "middle", threads := [(7, "mine")] }, next := some 0 }
  | 2 => { names := childNames, next := some 1 }
  | 3 => { names := childNames, next := some 3 }
  | 4 => { names := childNames, next := some 5 }
  | 5 => { names := childNames, next := some 4 }
  | _ => { names := childNames }

example := C142_exact lib fmtS (fun _ _ => false) family 5 2 logged logged_plain 30 rfl
example : route family 30 5 2 = [1, 0] ∧ route family 10 5 2 = [1] := by decide
example := C141_partial lib fmtS (fun _ _ => false) family 5 2 logged logged_plain 30 rfl
example := C141_fails lib fmtS (fun _ _ => false) family 2 1 0 logged logged_plain 30 rfl rfl rfl (by decide) (by decide) "middle" rfl
example := C141_labels lib fmtS (fun _ _ => false) family 5 2 logged logged_plain 30 rfl
example := C142_partial lib fmtS (fun _ _ => false) (fun i => if i < 3 then family i else { names := childNames }) id (by
  intro i j h
  match i, h with
  | 1, h => cases h; decide
  | 2, h => cases h; decide)
example := C142_self lib fmtS (fun _ _ => false) family 3 logged logged_plain 30 rfl rfl (by decide)
example := C142_fails lib fmtS (fun _ _ => false) family 4 2 logged logged_plain 30 rfl
  (by rw [C142_exact lib fmtS (fun _ _ => false) family 2 4 logged logged_plain 30 rfl]; decide)
/-- The thread id of the record means another thread in the process in the middle. -/
example : ((trail lib fmtS (fun _ _ => false) family 5 2 logged).map fun x => match x.2.get? "process_name", x.2.get? "thread_name", x.2.get? "msg" with
    | some (.str p), some (.str t), some (.str m) => (x.1, p, t, m) | _, _, _ => (x.1, "", "", "")) = [(1, "child", "worker", "got x"), (0, "middle", "mine", "got x")] := by decide +kernel
/-- After these calls the sender of a process is connected to its own server. -/
example (a : Bytes) : (LogGlobals.run {} [.startServer a, .getAddress, .setAddress a]) = ({ server := some a, sender := some a, serverAddr := some a }, [.done, .address (some a), .done]) := rfl

end Verif.Ex
