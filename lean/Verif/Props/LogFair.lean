import Verif.Proof.LogFair
import Verif.Props.LogNet
import Verif.Props.LogHops
/-!
# C140 for every fair schedule
-/
namespace Verif

/-- The first `n` events of a history without end. -/
def firstEvents (σ : Nat → LogNetEv) (n : Nat) : List LogNetEv := (List.range n).map σ

theorem first_succ (σ : Nat → LogNetEv) (n : Nat) : firstEvents σ (n + 1) = firstEvents σ n ++ [σ n] := by
  simp [firstEvents, List.range_succ]

theorem first_prefix (σ : Nat → LogNetEv) {k n : Nat} (h : k ≤ n) : firstEvents σ k <+: firstEvents σ n := by
  obtain ⟨d, rfl⟩ := Nat.le.dest h
  clear h
  induction d with
  | zero => exact List.prefix_refl _
  | succ d ih => exact ih.trans ⟨[σ (k + d)], (first_succ σ (k + d)).symm⟩

/-- This happens again and again. -/
def Again (σ : Nat → LogNetEv) (e : LogNetEv) : Prop := ∀ n, ∃ m, n ≤ m ∧ σ m = e

/-- **C140** In every history without end in which the thread of the sender of process `i`, ZeroMQ (for this process) and the thread of the server always get another turn: whatever process `i`
has logged at some time is read by the server sooner or later, and stays the beginning of what is read from this process, record for record. In between the other processes may do what they like, as
often as they like. The process `i` must log plain records and leave its sender alone, the others must log records with a level, and the server must not be stopped. -/
theorem C140_fair (L : Lib) (fmt lt) (N : Nat → LogNames) (a : Bytes) (filter : Bool) (levels : List Int) (σ : Nat → LogNetEv) (i : Nat)
    (hg : ∀ n j, ∀ r ∈ handledOf (inProc j (firstEvents σ n)), Levelled r) (hs : ∀ n, σ n ≠ .stop)
    (hc : ∀ n, Calm (inProc i (firstEvents σ n))) (hp : ∀ n, ∀ r ∈ handledOf (inProc i (firstEvents σ n)), PlainRecord fmt r)
    (h1 : Again σ (.at i .go)) (h2 : Again σ (.deliver i)) (h3 : Again σ .serve) (k : Nat) :
    ∃ n, ∀ n', n ≤ n' → ∃ B : List (Nat × Fields),
      B.map (·.2) = (readsOf (ofServer ((LogNetSt.init N a filter levels).run L fmt lt (firstEvents σ n')).2)).map (·.1) ∧
      Zip (fun r d => ∃ M ∈ namesOf (N i) (inProc i (firstEvents σ n')), Arrived fmt M r d) (handledOf (inProc i (firstEvents σ k)))
        ((fromProc i B).take (handledOf (inProc i (firstEvents σ k))).length) := by
  have hfw : ∀ n, ∀ r ∈ handledOf (inProc i (firstEvents σ n)), Forwardable L fmt r :=
    fun n r hr M => let ⟨w, _, h, _⟩ := C75_record L fmt M r (hp n r hr); ⟨w, h⟩
  have hstop : ∀ n, .stop ∉ firstEvents σ n := by
    intro n hm
    simp only [firstEvents, List.mem_map] at hm
    obtain ⟨x, _, hx⟩ := hm
    exact hs x hx
  have hsub : ∀ {x y : List LogNetEv}, x <+: y → handledOf (inProc i x) <+: handledOf (inProc i y) := by
    rintro x _ ⟨z, rfl⟩
    rw [inProc_append, handledOf_append]; exact List.prefix_append _ _
  -- the records are sent
  have hin : ∀ n e, σ n = .at i e → inProc i (firstEvents σ (n + 1)) = inProc i (firstEvents σ n) ++ [e] := by
    intro n e he
    rw [first_succ, inProc_append, he]; simp [inProc]
  have hout : ∀ n, (∀ e, σ n ≠ .at i e) → inProc i (firstEvents σ (n + 1)) = inProc i (firstEvents σ n) := by
    intro n he
    rw [first_succ, inProc_append]
    have : inProc i [σ n] = [] := by
      simp only [inProc, List.filterMap_cons, List.filterMap_nil]
      split
      · rfl
      · rename_i e hh
        split at hh
        · rename_i j e' hj
          split at hh
          · rename_i hji; subst hji; exact absurd hj (he e')
          · cases hh
        · cases hh
    rw [this, List.append_nil]
  have hstep1 : ∀ n e, σ n = .at i e → _ := fun n e he =>
    progress_step (sender_run L fmt (N i) a (inProc i (firstEvents σ n)) (hc n)) (hfw n) e (by
      have := hc (n + 1); rw [hin n e he] at this
      exact fun x hx => this x (by simp at hx; simp [hx]))
  let f1 := fun n => sendProgress ((SenderSt.init (N i) a).run L fmt (inProc i (firstEvents σ n))).2 ((SenderSt.init (N i) a).run L fmt (inProc i (firstEvents σ n))).1
  obtain ⟨n1, hn1, hr1⟩ := ratchet f1 (fun n => σ n = .at i .go) (4 * (handledOf (inProc i (firstEvents σ k))).length) k
    (by
      intro n
      by_cases hh : ∃ e, σ n = .at i e
      · obtain ⟨e, he⟩ := hh
        have := (hstep1 n e he).1
        simp only [f1, hin n e he]
        rw [sender_run_snoc]; exact this
      · simp only [f1, hout n (fun e he => hh ⟨e, he⟩)]; exact Nat.le_refl _)
    (by
      intro n hn ht hlt
      have := (hstep1 n .go ht).2 rfl (Nat.lt_of_lt_of_le hlt (by have := (hsub (first_prefix σ hn)).length_le; omega))
      simp only [f1, hin n .go ht]
      rw [sender_run_snoc]; exact this)
    h1
  have hs1 : ∀ n, n1 ≤ n → (handledOf (inProc i (firstEvents σ k))).length ≤ (wiresTo a ((SenderSt.init (N i) a).run L fmt (inProc i (firstEvents σ n))).2).length := by
    intro n hn
    have h := hr1 n hn
    have hz := zip_length (sender_zip (L := L) (lt := lt) (fmt := fmt) (N := N i) (a := a) (hg n i)).1
    rw [sentToAddr_calm (hc n)] at hz
    rw [← hz]
    simp only [f1, sendProgress] at h
    split at h <;> omega
  -- they arrive
  have hat := fun n => net_run L fmt lt N a filter levels (firstEvents σ n)
  have harr : ∀ n, ∃ l, arrivals ((LogNetSt.init N a filter levels).run L fmt lt (firstEvents σ (n + 1))).2 =
      arrivals ((LogNetSt.init N a filter levels).run L fmt lt (firstEvents σ n)).2 ++ l := by
    intro n; rw [first_succ, net_run_snoc, arrivals_append]; exact ⟨_, rfl⟩
  obtain ⟨n2, hn2, hr2⟩ := ratchet (fun n => (fromProc i (arrivals ((LogNetSt.init N a filter levels).run L fmt lt (firstEvents σ n)).2)).length) (fun n => σ n = .deliver i)
    (handledOf (inProc i (firstEvents σ k))).length n1
    (by intro n; obtain ⟨l, hl⟩ := harr n; rw [hl, fromProc_append]; simp)
    (by
      intro n hn ht hlt
      obtain ⟨fs, h⟩ := hat n
      have hlen := congrArg List.length (h.sent i)
      have := hs1 n hn
      simp only [first_succ, net_run_snoc, ht, arrivals_append, fromProc_append, List.length_append] at hlen hlt ⊢
      generalize (LogNetSt.init N a filter levels).run L fmt lt (firstEvents σ n) = x at *
      cases hch : x.1.chan i with
      | nil => rw [hch] at hlen; simp at hlen; omega
      | cons w r =>
        have : fromProc i (arrivals (x.1.step L fmt lt (.deliver i)).2) = [w] := by
          simp [LogNetSt.step, hch, LogNetSt.serverStep, LogSrvSt.step, arrivals, fromProc]
        rw [this]; simp)
    h2
  -- they are read
  have hreads : ∀ n, ∃ l, readsOf (ofServer ((LogNetSt.init N a filter levels).run L fmt lt (firstEvents σ (n + 1))).2) =
      readsOf (ofServer ((LogNetSt.init N a filter levels).run L fmt lt (firstEvents σ n)).2) ++ l := by
    intro n; rw [first_succ, net_run_snoc, ofServer_append, readsOf_append]; exact ⟨_, rfl⟩
  have harrM : ∀ {m n}, m ≤ n → (arrivals ((LogNetSt.init N a filter levels).run L fmt lt (firstEvents σ m)).2) <+: (arrivals ((LogNetSt.init N a filter levels).run L fmt lt (firstEvents σ n)).2) := by
    intro m n h
    obtain ⟨z, hz⟩ := first_prefix σ h
    rw [← hz, net_run_append, arrivals_append]; exact List.prefix_append _ _
  obtain ⟨n3, hn3, hr3⟩ := ratchet (fun n => (readsOf (ofServer ((LogNetSt.init N a filter levels).run L fmt lt (firstEvents σ n)).2)).length) (fun n => σ n = .serve)
    (arrivals ((LogNetSt.init N a filter levels).run L fmt lt (firstEvents σ n2)).2).length n2
    (by intro n; obtain ⟨l, hl⟩ := hreads n; rw [hl]; simp)
    (by
      intro n hn ht hlt
      obtain ⟨fs, h⟩ := hat n
      have hgood := net_good h (hg n)
      have hm := logsrv_reads_more (filter := filter) (levels := levels) fs hgood (fun hh => hstop n (h.stops hh)) (by
        rw [h.srv, h.got, List.length_map]
        exact Nat.lt_of_lt_of_le hlt (harrM hn).length_le)
      rw [h.srv] at hm
      simp only [first_succ, net_run_snoc, ht, ofServer_append, readsOf_append, List.length_append, LogNetSt.step, LogNetSt.serverStep, ofServer_server]
      dsimp only at hm; omega)
    h3
  refine ⟨n3, fun n' hn' => ?_⟩
  obtain ⟨B, b1, b2, b3, -⟩ := C139_merged L fmt lt N a filter levels (firstEvents σ n') (hg n')
  refine ⟨B, b1, ?_⟩
  obtain ⟨k', hz⟩ := b3 i (hc n')
  have hBl : (arrivals ((LogNetSt.init N a filter levels).run L fmt lt (firstEvents σ n2)).2).length ≤ B.length := by
    have := hr3 n' hn'
    have hb := congrArg List.length b1
    simp only [List.length_map] at hb
    omega
  have hpre : (arrivals ((LogNetSt.init N a filter levels).run L fmt lt (firstEvents σ n2)).2).map (·.1) <+: B.map (·.1) :=
    List.prefix_of_prefix_length_le ((harrM (by omega)).map _) b2 (by simpa using hBl)
  have hlen : (handledOf (inProc i (firstEvents σ k))).length ≤ (fromProc i B).length := by
    have := hr2 n2 (Nat.le_refl _)
    rw [fromProc_length] at this ⊢
    exact Nat.le_trans this (hpre.sublist.count_le _)
  have hz' := zip_take hz (handledOf (inProc i (firstEvents σ k))).length
  have hzl := zip_length hz
  have htk : ((handledOf (inProc i (firstEvents σ n'))).take k').take (handledOf (inProc i (firstEvents σ k))).length = handledOf (inProc i (firstEvents σ k)) := by
    obtain ⟨z, hzz⟩ := hsub (first_prefix σ (show k ≤ n' by omega))
    rw [← hzz] at hzl ⊢
    simp only [List.length_take, List.length_append] at hzl
    rw [List.take_take, Nat.min_eq_left (by omega), List.take_left]
  rw [htk] at hz'
  refine zip_sub hz' fun r hr d h => h (hp k r hr)

/-- **C140** On a way over several servers a record with a level harms at most the sender in the process where it is forwarded, exactly if it cannot be made a message there; never the server at the
other end. -/
theorem C140_hop (L : Lib) (fmt lt) (P : Nat → LogProc) (i : Nat) (r : Fields) (h : Levelled r) :
    (∀ e, hop L fmt lt P i r ≠ .unreadable e) ∧
    (∀ e, hop L fmt lt P i r = .unsendable e ↔ (P i).next ≠ none ∧ messageFor L fmt (P i).names r = .error e) := by
  have hg : ∀ w, messageFor L fmt (P i).names r = .ok w → GoodMessage lt (some w) := fun w hw => sent_good h hw lt
  unfold messageFor at hg ⊢
  unfold hop
  cases (P i).next with
  | none => simp
  | some j =>
    cases h0 : forwardFields fmt (P i).names r with
    | error e => simp
    | ok d =>
      simp only [h0] at hg ⊢
      cases h1 : plainDumps L jsonDepth (Fields.val d) with
      | error e => simp
      | ok w =>
        obtain ⟨d', hr, hb⟩ := hg w h1
        obtain ⟨b, hb⟩ := hb (effectiveLevel (P j).levels)
        simp only [hr, hb]
        cases (P j).filter <;> cases b <;> simp

/-! ## An instance -/
namespace Ex

/-- Process 0 logs for ever, one record a round; process 1 logs too but closes its sender all the time; the threads and ZeroMQ get one turn a round each, so the sender of process 0 falls behind
further and further. -/
def rounds (n : Nat) : LogNetEv :=
  match n % 6 with
  | 0 => .at 0 (.handle loggedInfo)
  | 1 => .at 1 (.handle logged)
  | 2 => .at 1 .closeSwap
  | 3 => .at 0 .go
  | 4 => .deliver 0
  | _ => .serve

theorem rounds_mem {n : Nat} {x : LogNetEv} (h : x ∈ firstEvents rounds n) :
    x = .at 0 (.handle loggedInfo) ∨ x = .at 1 (.handle logged) ∨ x = .at 1 .closeSwap ∨ x = .at 0 .go ∨ x = .deliver 0 ∨ x = .serve := by
  simp only [firstEvents, List.mem_map] at h
  obtain ⟨m, -, rfl⟩ := h
  unfold rounds
  split <;> simp

theorem rounds_plain (n j : Nat) : ∀ r ∈ handledOf (inProc j (firstEvents rounds n)), r ∈ handledOf logging2 := by
  intro r hr
  have hl : handledOf logging2 = [logged, loggedInfo] := rfl
  rw [hl]
  simp only [handledOf, inProc, List.filterMap_filterMap, List.mem_filterMap] at hr
  obtain ⟨x, hx, h⟩ := hr
  rcases rounds_mem hx with rfl | rfl | rfl | rfl | rfl | rfl <;> dsimp only at h <;> first | (split at h <;> simp_all) | simp_all

theorem rounds_again (i : Nat) (hi : i < 6) : Again rounds (rounds i) := fun n => ⟨6 * n + i, by omega, by
  have : (6 * n + i) % 6 = i % 6 := by omega
  simp only [rounds, this]⟩

example := C140_fair lib fmtS (fun _ _ => false) (fun _ => childNames) [] true [20] rounds 0
  (fun n j r hr => by
    have h := rounds_plain n j r hr
    have hl : handledOf logging2 = [logged, loggedInfo] := rfl
    rw [hl] at h
    simp only [List.mem_cons, List.not_mem_nil, or_false] at h
    rcases h with rfl | rfl
    · exact ⟨by simp [Dict.WF, logged], .inl ⟨30, rfl⟩⟩
    · exact ⟨by simp [Dict.WF, loggedInfo], .inl ⟨20, rfl⟩⟩)
  (fun n => by unfold rounds; split <;> simp)
  (fun n e he => by
    simp only [inProc, List.mem_filterMap] at he
    obtain ⟨x, hx, h⟩ := he
    rcases rounds_mem hx with rfl | rfl | rfl | rfl | rfl | rfl <;> dsimp only at h <;> first | (split at h <;> first | (cases h; trivial) | cases h) | cases h)
  (fun n r hr => logging2_plain r (rounds_plain n 0 r hr))
  (rounds_again 3 (by decide)) (rounds_again 4 (by decide)) (rounds_again 5 (by decide))
/-- After thirty rounds process 0 has logged thirty records, and the server has read seven of them. -/
example : (handledOf (inProc 0 (firstEvents rounds 180))).length = 30 ∧
    (readsOf (ofServer ((LogNetSt.init (fun _ => childNames) [] true [20]).run lib fmtS (fun _ _ => false) (firstEvents rounds 180)).2)).length = 7 := by decide +kernel

example := C140_hop lib fmtS (fun _ _ => false) family 2 loggedException ⟨by simp [Dict.WF, loggedException], .inl ⟨40, rfl⟩⟩
/-- A record that cannot be written stops the sender, a plain one does not. -/
example : (match hop lib fmtS (fun _ _ => false) family 2 loggedException with | .unsendable _ => true | _ => false) = true ∧
    (match hop lib fmtS (fun _ _ => false) family 2 logged with | .handled 1 _ => true | _ => false) = true := by decide +kernel

end Ex
end Verif
