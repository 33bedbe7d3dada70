import Verif.Props.LogFair
import Verif.Props.HandlerFair
import Verif.Props.LogAll
/-!
# C143 for every fair schedule
-/
namespace Verif

/-- Lists that grow without end are the beginnings of a sequence. -/
theorem grows_seq {α : Type} (l : Nat → List α) (hp : ∀ n, l n <+: l (n + 1)) (hu : ∀ c, ∃ n, c < (l n).length) :
    ∃ τ : Nat → α, ∀ n, (List.range (l n).length).map τ = l n := by
  have hle : ∀ {m n}, m ≤ n → l m <+: l n := by
    intro m n h
    obtain ⟨d, rfl⟩ := Nat.le.dest h
    clear h
    induction d with
    | zero => exact List.prefix_refl _
    | succ d ih => exact ih.trans (hp (m + d))
  refine ⟨fun c => (l (Classical.choose (hu c)))[c]'(Classical.choose_spec (hu c)), fun n => ?_⟩
  apply List.ext_getElem
  · simp
  · intro c h1 h2
    simp only [List.getElem_map, List.getElem_range]
    rcases Nat.le_total (Classical.choose (hu c)) n with h | h
    · exact (hle h).getElem (Classical.choose_spec (hu c))
    · exact ((hle h).getElem h2).symm

/-- What is added again and again comes again and again in the sequence. -/
theorem grows_again {α : Type} {l : Nat → List α} {τ : Nat → α} {T : Nat → Prop} {e : α} (hu : ∀ c, ∃ n, c < (l n).length) (hle : ∀ {m n}, m ≤ n → l m <+: l n)
    (hτ : ∀ n, (List.range (l n).length).map τ = l n) (ht : ∀ n, T n → l (n + 1) = l n ++ [e]) (ha : ∀ n, ∃ m, n ≤ m ∧ T m) : ∀ n, ∃ m, n ≤ m ∧ τ m = e := by
  intro n
  obtain ⟨n0, h0⟩ := hu n
  obtain ⟨m, hm, hT⟩ := ha n0
  refine ⟨(l m).length, Nat.le_trans (Nat.le_of_lt h0) (hle hm).length_le, ?_⟩
  have h := hτ (m + 1)
  rw [ht m hT, List.length_append, List.length_singleton, List.range_succ, List.map_append, hτ m] at h
  simpa using h

theorem grows_unbounded {α : Type} {l : Nat → List α} {T : Nat → Prop} {e : α} (hle : ∀ {m n}, m ≤ n → l m <+: l n) (ht : ∀ n, T n → l (n + 1) = l n ++ [e])
    (ha : ∀ n, ∃ m, n ≤ m ∧ T m) (c : Nat) : ∃ n, c < (l n).length := by
  induction c with
  | zero => obtain ⟨m, -, hT⟩ := ha 0; exact ⟨m + 1, by rw [ht m hT]; simp⟩
  | succ c ih =>
    obtain ⟨n, hn⟩ := ih
    obtain ⟨m, hm, hT⟩ := ha n
    exact ⟨m + 1, by rw [ht m hT]; have := (hle hm).length_le; simp; omega⟩

theorem sees_append (L : Lib) (fmt lt) (E : LogEnv) (ms) (es fs : List LogAllEv) : ∀ a : LogAll,
    handlerSees L fmt lt E ms a (es ++ fs) = handlerSees L fmt lt E ms a es ++ handlerSees L fmt lt E ms (a.run L fmt lt E ms es).1 fs := by
  induction es with
  | nil => intro a; rfl
  | cons e es ih => intro a; simp only [List.cons_append, handlerSees, ih, List.append_assoc]; rfl

theorem seenFrom_mem (ms) {d : Fields} : ∀ {l : List Fields} (k : Nat), d ∈ l → ∃ uid, recordSeen ms uid d ∈ seenFrom ms k l
  | x :: l, k, h => by
    rcases List.mem_cons.1 h with rfl | h
    · exact ⟨k, by simp [seenFrom]⟩
    · obtain ⟨u, hu⟩ := seenFrom_mem ms (k + 1) h
      exact ⟨u, by simp [seenFrom, hu]⟩

theorem zip_left {α β : Type} {R : α → β → Prop} {x : List α} {y : List β} (h : Zip R x y) : ∀ r ∈ x, ∃ w ∈ y, R r w := by
  induction h with
  | nil => simp
  | @cons r w rs ws h _ ih =>
    intro q hq
    rcases List.mem_cons.1 hq with rfl | hq
    · exact ⟨w, by simp, h⟩
    · obtain ⟨v, hv, hR⟩ := ih q hq
      exact ⟨v, by simp [hv], hR⟩

theorem namesOf_mono {N M : LogNames} {i : Nat} {x y : List LogNetEv} (h : x <+: y) (hM : M ∈ namesOf N (inProc i x)) : M ∈ namesOf N (inProc i y) := by
  obtain ⟨z, rfl⟩ := h
  rw [inProc_append, namesOf_append]; exact List.mem_append_left _ hM

/-- The first `n` events of a history of it all without end. -/
def firstAll (σ : Nat → LogAllEv) (n : Nat) : List LogAllEv := (List.range n).map σ

/-- **C143** In every history without end in which the sender of process `i`, ZeroMQ (for this process), the server and the polling thread of the handler always get another turn and the clock passes
every time, nobody stops the server or calls `flush_records`: every plain record logged in process `i`, if not below the level of the server, arrives and is treated by the handler sooner or later, and
is on the stream from then on if it can be formatted there. -/
theorem C143_fair (L : Lib) (fmt lt) (E : LogEnv) (ms) (N : Nat → LogNames) (a : Bytes) (filter : Bool) (levels : List Int) (now : Int) (σ : Nat → LogAllEv) (i : Nat)
    (hg : ∀ n j, ∀ r ∈ handledOf (inProc j (logNetEvs (firstAll σ n))), Levelled r) (hs : ∀ n, σ n ≠ .net .stop) (hf : ∀ n, σ n ≠ .hdl .flush)
    (hc : ∀ n, Calm (inProc i (logNetEvs (firstAll σ n)))) (hp : ∀ n, ∀ r ∈ handledOf (inProc i (logNetEvs (firstAll σ n))), PlainRecord fmt r)
    (h1 : ∀ n, ∃ m, n ≤ m ∧ σ m = .net (.at i .go)) (h2 : ∀ n, ∃ m, n ≤ m ∧ σ m = .net (.deliver i)) (h3 : ∀ n, ∃ m, n ≤ m ∧ σ m = .net .serve)
    (h4 : ∀ n, ∃ m, n ≤ m ∧ σ m = .hdl .poll) (ht : ∀ t : Int, ∃ n, t ≤ ((LogAll.init N a filter levels now).run L fmt lt E ms (firstAll σ n)).1.hdl.now)
    (k : Nat) (r : Fields) (hr : r ∈ handledOf (inProc i (logNetEvs (firstAll σ k))))
    (hl : filter = false ∨ (∀ n l, σ n ≠ .net (.setLevels l)) ∧ ∃ n, r.get? "levelno" = some (.int n) ∧ effectiveLevel levels ≤ n) :
    ∃ n d uid, (∃ M ∈ namesOf (N i) (inProc i (logNetEvs (firstAll σ n))), Arrived fmt M r d) ∧ ∀ n', n ≤ n' →
      recordSeen ms uid d ∈ (hdlOuts ((LogAll.init N a filter levels now).run L fmt lt E ms (firstAll σ n')).2).map LogOut.record ∧
      (Writable E (recordSeen ms uid d) → ∃ line, .wrote (recordSeen ms uid d) line ∈ hdlOuts ((LogAll.init N a filter levels now).run L fmt lt E ms (firstAll σ n')).2) := by
  have hsucc : ∀ n, firstAll σ (n + 1) = firstAll σ n ++ [σ n] := fun n => by simp [firstAll, List.range_succ]
  have hpre : ∀ {m n}, m ≤ n → firstAll σ m <+: firstAll σ n := by
    intro m n h
    obtain ⟨d, rfl⟩ := Nat.le.dest h
    clear h
    induction d with
    | zero => exact List.prefix_refl _
    | succ d ih => exact ih.trans ⟨[σ (m + d)], (hsucc (m + d)).symm⟩
  have hmem : ∀ {n x}, x ∈ firstAll σ n → ∃ m, σ m = x := by
    intro n x hx
    simp only [firstAll, List.mem_map] at hx
    obtain ⟨m, _, hm⟩ := hx
    exact ⟨m, hm⟩
  -- the events of senders and server as a sequence
  have nle : ∀ {m n}, m ≤ n → logNetEvs (firstAll σ m) <+: logNetEvs (firstAll σ n) := by
    intro m n h
    obtain ⟨z, hz⟩ := hpre h
    rw [← hz, logNetEvs_append]; exact List.prefix_append _ _
  have nadd : ∀ e n, σ n = .net e → logNetEvs (firstAll σ (n + 1)) = logNetEvs (firstAll σ n) ++ [e] := by
    intro e n he; rw [hsucc, logNetEvs_append, he]; rfl
  have nun := grows_unbounded nle (nadd (.at i .go)) h1
  obtain ⟨τ, hτ⟩ := grows_seq (fun n => logNetEvs (firstAll σ n)) (fun n => nle (Nat.le_succ n)) nun
  have hτ' : ∀ n, firstEvents τ (logNetEvs (firstAll σ n)).length = logNetEvs (firstAll σ n) := hτ
  have hin : ∀ c, ∃ n, firstEvents τ c <+: logNetEvs (firstAll σ n) := by
    intro c
    obtain ⟨n, hn⟩ := nun c
    exact ⟨n, by have := first_prefix τ (Nat.le_of_lt hn); rwa [hτ'] at this⟩
  have hsub : ∀ {x y : List LogNetEv} j, x <+: y → handledOf (inProc j x) <+: handledOf (inProc j y) := by
    rintro x _ j ⟨z, rfl⟩
    rw [inProc_append, handledOf_append]; exact List.prefix_append _ _
  have hnet : ∀ {n e}, e ∈ logNetEvs (firstAll σ n) → ∃ m, σ m = .net e := by
    intro n e he
    simp only [logNetEvs, List.mem_filterMap] at he
    obtain ⟨x, hx, h⟩ := he
    cases x with
    | net e' => cases h; exact hmem hx
    | hdl e' => cases h
  obtain ⟨c0, hc0⟩ := C140_fair L fmt lt N a filter levels τ i
    (fun c j r hr => by obtain ⟨n, hn⟩ := hin c; exact hg n j r ((hsub j hn).subset hr))
    (fun c hstop => by
      obtain ⟨n, hn⟩ := hin (c + 1)
      have : τ c ∈ logNetEvs (firstAll σ n) := hn.subset (by rw [first_succ]; simp)
      obtain ⟨m, hm⟩ := hnet this
      exact hs m (by rw [hm, hstop]))
    (fun c e he => by
      obtain ⟨n, z, hz⟩ := hin c
      exact hc n e (by rw [← hz, inProc_append]; exact List.mem_append_left _ he))
    (fun c r hr => by obtain ⟨n, hn⟩ := hin c; exact hp n r ((hsub i hn).subset hr))
    (grows_again nun nle hτ (nadd _) h1) (grows_again nun nle hτ (nadd _) h2) (grows_again nun nle hτ (nadd _) h3) (logNetEvs (firstAll σ k)).length
  obtain ⟨n1, hn1⟩ := nun c0
  obtain ⟨B, b1, b2⟩ := hc0 _ (Nat.le_of_lt hn1)
  simp only [hτ'] at b1 b2
  obtain ⟨d, hd, M, hM, harr⟩ := zip_left b2 r hr
  -- the server passes it on
  have hread : d ∈ (readsOf (ofServer ((LogNetSt.init N a filter levels).run L fmt lt (logNetEvs (firstAll σ n1))).2)).map (·.1) := by
    rw [← b1]
    have := List.mem_of_mem_take hd
    simp only [fromProc, List.mem_filterMap] at this
    obtain ⟨⟨j, d'⟩, hx, hy⟩ := this
    dsimp only at hy
    split at hy
    · cases hy; exact List.mem_map.2 ⟨_, hx, rfl⟩
    · cases hy
  have hpass : d ∈ passedOf (ofServer ((LogNetSt.init N a filter levels).run L fmt lt (logNetEvs (firstAll σ n1))).2) := by
    rw [C139_passed]
    obtain ⟨rl, hrl, rfl⟩ := List.mem_map.1 hread
    refine List.mem_map.2 ⟨rl, List.mem_filter.2 ⟨hrl, ?_⟩, rfl⟩
    rcases hl with rfl | ⟨hl1, n, hn, hle⟩
    · rfl
    have hlev := net_levels (L := L) (fmt := fmt) (lt := lt) (logNetEvs (firstAll σ n1)) (LogNetSt.init N a filter levels) (by
      intro l h
      obtain ⟨m, hm⟩ := hnet h
      exact hl1 m l hm) rl hrl
    have hd' : rl.1.get? "levelno" = some (.int n) := harr.same _ _ (by decide) (by decide) (by decide) (by decide) (by decide) hn
    have : levelBelow lt rl.1 rl.2 = .ok false := by
      rw [hlev, C55_level lt rl.1 n _ hd']
      exact hle
    simp [this]
  -- the handler gets it
  have hall := fun n => all_run L fmt lt E ms (firstAll σ n) (LogAll.init N a filter levels now)
  obtain ⟨uid, huid⟩ := seenFrom_mem ms 0 hpass
  have hem : recordSeen ms uid d ∈ emittedOf (handlerSees L fmt lt E ms (LogAll.init N a filter levels now) (firstAll σ n1)) := by
    obtain ⟨-, q2, -, -, q5⟩ := hall n1
    refine q5.mem_iff.2 (List.mem_append_right _ ?_)
    rw [q2]; exact huid
  -- the events of the handler as a sequence
  have hle : ∀ {m n}, m ≤ n → handlerSees L fmt lt E ms (LogAll.init N a filter levels now) (firstAll σ m) <+: handlerSees L fmt lt E ms (LogAll.init N a filter levels now) (firstAll σ n) := by
    intro m n h
    obtain ⟨z, hz⟩ := hpre h
    rw [← hz, sees_append]; exact List.prefix_append _ _
  have hadd : ∀ n, σ n = .hdl .poll → handlerSees L fmt lt E ms (LogAll.init N a filter levels now) (firstAll σ (n + 1)) =
      handlerSees L fmt lt E ms (LogAll.init N a filter levels now) (firstAll σ n) ++ [.poll] := by
    intro n he; rw [hsucc, sees_append, he]; rfl
  have hun := grows_unbounded hle hadd h4
  obtain ⟨ρ, hρ⟩ := grows_seq (fun n => handlerSees L fmt lt E ms (LogAll.init N a filter levels now) (firstAll σ n)) (fun n => hle (Nat.le_succ n)) hun
  have hρ' : ∀ n, firstHandled ρ (handlerSees L fmt lt E ms (LogAll.init N a filter levels now) (firstAll σ n)).length =
    handlerSees L fmt lt E ms (LogAll.init N a filter levels now) (firstAll σ n) := hρ
  have hρm : ∀ c, ∃ n, ρ c ∈ handlerSees L fmt lt E ms (LogAll.init N a filter levels now) (firstAll σ n) := by
    intro c
    obtain ⟨n, hn⟩ := hun c
    exact ⟨n, by rw [← hρ' n]; simp only [firstHandled, List.mem_map, List.mem_range]; exact ⟨c, hn, rfl⟩⟩
  have hkey : ∃ c, ρ c = .emit (recordSeen ms uid d) := by
    rw [← hρ' n1] at hem
    simp only [emittedOf, firstHandled, List.mem_filterMap, List.mem_map] at hem
    obtain ⟨x, ⟨c, _, rfl⟩, hx⟩ := hem
    refine ⟨c, ?_⟩
    split at hx
    · rename_i y hy; cases hx; exact hy
    · cases hx
  obtain ⟨c, hcc⟩ := hkey
  obtain ⟨m0, hm0⟩ := C53_fair E now [] ρ
    (fun c hfl => by
      obtain ⟨n, hn⟩ := hρm c
      rw [hfl] at hn
      exact sees_flush (firstAll σ n) _ (fun h => by obtain ⟨m, hm⟩ := hmem h; exact hf m hm) hn)
    (grows_again hun hle hρ hadd h4)
    (fun t => by
      obtain ⟨n, hn⟩ := ht t
      refine ⟨(handlerSees L fmt lt E ms (LogAll.init N a filter levels now) (firstAll σ n)).length, ?_⟩
      · rw [hρ' n]; rw [(hall n).2.2.1] at hn; exact hn)
    c _ hcc
  obtain ⟨n2, hn2⟩ := hun m0
  refine ⟨max n1 n2, d, uid, ⟨M, ?_, harr⟩, fun n' hn' => ?_⟩
  · exact namesOf_mono (nle (Nat.le_max_left n1 n2)) hM
  · have hlen := (hle (show n2 ≤ n' by omega)).length_le
    have := hm0 _ (show m0 ≤ (handlerSees L fmt lt E ms (LogAll.init N a filter levels now) (firstAll σ n')).length by omega)
    rw [hρ' n'] at this
    rw [(hall n').2.2.2.1]
    exact this

/-! ## An instance -/
namespace Ex

/-- Process 0 logs for ever and process 1 closes its sender all the time, as in `rounds`; in between the clock and the polling thread have their turns. -/
def allRounds (n : Nat) : LogAllEv :=
  match n % 8 with
  | 6 => .hdl (.tick 50)
  | 7 => .hdl .poll
  | m => .net (rounds m)

theorem allRounds_mem {n : Nat} {x : LogNetEv} (h : x ∈ logNetEvs (firstAll allRounds n)) :
    x = .at 0 (.handle loggedInfo) ∨ x = .at 1 (.handle logged) ∨ x = .at 1 .closeSwap ∨ x = .at 0 .go ∨ x = .deliver 0 ∨ x = .serve := by
  simp only [logNetEvs, firstAll, List.mem_filterMap, List.mem_map] at h
  obtain ⟨y, ⟨m, -, rfl⟩, hy⟩ := h
  have hx : allRounds m = .net x := by
    cases hm : allRounds m with
    | net e => rw [hm] at hy; cases hy; rfl
    | hdl e => rw [hm] at hy; cases hy
  unfold allRounds at hx
  split at hx
  · cases hx
  · cases hx
  · cases hx; unfold rounds; split <;> simp

theorem allRounds_plain (n j : Nat) : ∀ r ∈ handledOf (inProc j (logNetEvs (firstAll allRounds n))), r ∈ handledOf logging2 := by
  intro r hr
  have hl : handledOf logging2 = [logged, loggedInfo] := rfl
  rw [hl]
  simp only [handledOf, inProc, List.filterMap_filterMap, List.mem_filterMap] at hr
  obtain ⟨x, hx, h⟩ := hr
  rcases allRounds_mem hx with rfl | rfl | rfl | rfl | rfl | rfl <;> dsimp only at h <;> first | (split at h <;> simp_all) | simp_all

theorem allRounds_again (i : Nat) (hi : i < 8) (n : Nat) : ∃ m, n ≤ m ∧ allRounds m = allRounds i := ⟨8 * n + i, by omega, by
  have : (8 * n + i) % 8 = i % 8 := by omega
  simp only [allRounds, this]⟩

theorem all_now (E : LogEnv) (s : HandlerSt) : ∀ es, s.now ≤ (s.run E es).1.now := by
  intro es
  induction es generalizing s with
  | nil => exact Int.le_refl _
  | cons e es ih => exact Int.le_trans (step_now E s e) (ih _)

theorem allRounds_time (t : Int) : ∃ n, t ≤ ((LogAll.init (fun _ => childNames) [] true [20] 0).run lib fmtS (fun _ _ => false) (logEnv false) ms100 (firstAll allRounds n)).1.hdl.now := by
  have hs : ∀ n, firstAll allRounds (n + 1) = firstAll allRounds n ++ [allRounds n] := fun n => by simp [firstAll, List.range_succ]
  have key : ∀ k : Nat, (k : Int) ≤ ((LogAll.init (fun _ => childNames) [] true [20] 0).run lib fmtS (fun _ _ => false) (logEnv false) ms100 (firstAll allRounds (8 * k))).1.hdl.now := by
    intro k
    induction k with
    | zero => decide
    | succ k ih =>
      have h6 : allRounds (8 * k + 6) = .hdl (.tick 50) := by
        have : (8 * k + 6) % 8 = 6 := by omega
        simp only [allRounds, this]
      have hx : ∃ x y, firstAll allRounds (8 * (k + 1)) = firstAll allRounds (8 * k) ++ (x ++ ([.hdl (.tick 50)] ++ y)) := by
        refine ⟨[allRounds (8 * k), allRounds (8 * k + 1), allRounds (8 * k + 2), allRounds (8 * k + 3), allRounds (8 * k + 4), allRounds (8 * k + 5)], [allRounds (8 * k + 7)], ?_⟩
        rw [show 8 * (k + 1) = 8 * k + 7 + 1 by omega, hs, hs, hs, hs, hs, hs, hs, hs, h6]
        simp
      obtain ⟨x, y, hxy⟩ := hx
      rw [hxy, all_run_append, all_run_append, all_run_append]
      generalize ((LogAll.init (fun _ => childNames) [] true [20] 0).run lib fmtS (fun _ _ => false) (logEnv false) ms100 (firstAll allRounds (8 * k))).1 = A at ih
      have g1 : A.hdl.now ≤ (A.run lib fmtS (fun _ _ => false) (logEnv false) ms100 x).1.hdl.now := by
        rw [(all_run lib fmtS (fun _ _ => false) (logEnv false) ms100 x A).2.2.1]; exact all_now _ _ _
      have g2 := fun B : LogAll => (by
        rw [(all_run lib fmtS (fun _ _ => false) (logEnv false) ms100 y B).2.2.1]; exact all_now _ _ _ :
          B.hdl.now ≤ (B.run lib fmtS (fun _ _ => false) (logEnv false) ms100 y).1.hdl.now)
      refine Int.le_trans ?_ (g2 _)
      simp only [LogAll.run, LogAll.step, HandlerSt.step]
      omega
  exact ⟨8 * t.toNat, Int.le_trans (by omega) (key t.toNat)⟩

example := C143_fair lib fmtS (fun _ _ => false) (logEnv false) ms100 (fun _ => childNames) [] true [20] 0 allRounds 0
  (fun n j r hr => by
    have h := allRounds_plain n j r hr
    have hl : handledOf logging2 = [logged, loggedInfo] := rfl
    rw [hl] at h
    simp only [List.mem_cons, List.not_mem_nil, or_false] at h
    rcases h with rfl | rfl
    · exact ⟨by simp [Dict.WF, logged], .inl ⟨30, rfl⟩⟩
    · exact ⟨by simp [Dict.WF, loggedInfo], .inl ⟨20, rfl⟩⟩)
  (fun n => by unfold allRounds rounds; (repeat' split) <;> simp)
  (fun n => by unfold allRounds rounds; (repeat' split) <;> simp)
  (fun n e he => by
    simp only [inProc, List.mem_filterMap] at he
    obtain ⟨x, hx, h⟩ := he
    rcases allRounds_mem hx with rfl | rfl | rfl | rfl | rfl | rfl <;> dsimp only at h <;> first | (split at h <;> first | (cases h; trivial) | cases h) | cases h)
  (fun n r hr => logging2_plain r (allRounds_plain n 0 r hr))
  (allRounds_again 3 (by decide)) (allRounds_again 4 (by decide)) (allRounds_again 5 (by decide)) (allRounds_again 7 (by decide)) allRounds_time
  1 loggedInfo (by simp [firstAll, allRounds, rounds, logNetEvs, inProc, handledOf])
  (.inr ⟨fun n l => by unfold allRounds rounds; (repeat' split) <;> simp, 20, rfl, by decide⟩)

end Ex
end Verif
