import Verif.Props.Logging
/-!
# The loggers of a process, with those that do not exist counted as new ones

A logger that does not exist yet has no influence: it behaves as the logger Python would make for its name.
-/
namespace Verif

/-- The logger of a name; a new one if there is none. -/
def Logging.lg (s : Logging) (m : LogName) : PyLogger := (s.look m).getD {}

theorem lg_getLogger (s : Logging) (n m : LogName) : (s.getLogger n).lg m = s.lg m := by
  simp only [Logging.lg, look_getLogger]
  split <;> simp

theorem look_getLogger_self (s : Logging) (n : LogName) : ((s.getLogger n).look n).isSome := by
  simp [look_getLogger]

theorem lg_modify (s : Logging) (n m : LogName) (f : PyLogger → PyLogger) (h : (s.look n).isSome) : (s.modify n f).lg m = if n = m then f (s.lg m) else s.lg m := by
  simp only [Logging.lg, look_modify]
  split
  · subst_vars
    obtain ⟨l, hl⟩ := Option.isSome_iff_exists.1 h
    simp [hl]
  · rfl

theorem look_modify_isSome (s : Logging) (n m : LogName) (f : PyLogger → PyLogger) : ((s.modify n f).look m).isSome = (s.look m).isSome := by
  rw [look_modify]; split <;> simp

theorem lg_setLevel (s : Logging) (n m : LogName) (i : Int) (h : (s.look n).isSome) : (s.setLevel n i).lg m = { s.lg m with level := if n = m then i else (s.lg m).level, cache := [] } := by
  simp only [Logging.lg, look_setLevel]
  cases hx : s.look m with
  | some l => by_cases hn : n = m <;> simp [hn]
  | none =>
    by_cases hn : n = m
    · subst hn; rw [hx] at h; cases h
    · simp [hn]

theorem look_setLevel_isSome (s : Logging) (n m : LogName) (i : Int) : ((s.setLevel n i).look m).isSome = (s.look m).isSome := by
  rw [look_setLevel]; split <;> simp

theorem lg_made (s : Logging) (k : Nat) (m : LogName) : Logging.lg { s with made := k } m = s.lg m := rfl

/-- The level that counts for a logger. -/
def Logging.eff (s : Logging) (m : LogName) : Int := effectiveLevel ((logPrefixes m).map fun p => (s.lg p).level)

theorem eff_chain (s : Logging) (m : LogName) : effectiveLevel ((s.chain m).map PyLogger.level) = s.eff m := by
  simp only [Logging.chain, Logging.eff]
  induction logPrefixes m with
  | nil => rfl
  | cons p ps ih =>
    simp only [List.filterMap_cons, List.map_cons, effectiveLevel]
    have hd : s.lg p = (s.loggers.get? p).getD {} := rfl
    cases hx : s.loggers.get? p with
    | none => rw [hd, hx]; simpa using ih
    | some l => rw [hd, hx]; simp only [List.map_cons, effectiveLevel, Option.getD_some, ih]

theorem handlers_chain (s : Logging) (m : LogName) : chainHandlers (s.chain m) = chainHandlers ((logPrefixes m).map s.lg) := by
  simp only [Logging.chain]
  induction logPrefixes m with
  | nil => rfl
  | cons p ps ih =>
    simp only [List.filterMap_cons, List.map_cons, chainHandlers]
    have hd : s.lg p = (s.loggers.get? p).getD {} := rfl
    cases hx : s.loggers.get? p with
    | none => rw [hd, hx]; simpa using ih
    | some l => rw [hd, hx]; simp only [chainHandlers, Option.getD_some, ih]

theorem eff_congr {s s' : Logging} {m : LogName} (h : ∀ p ∈ logPrefixes m, (s'.lg p).level = (s.lg p).level) : s'.eff m = s.eff m := by
  simp only [Logging.eff]
  rw [List.map_congr_left h]

/-- asking whether a level is enabled -/
theorem lg_enabled (s : Logging) (n m : LogName) (i : Int) : (s.isEnabledFor n i).1.lg m = s.lg m ∨
    (m = n ∧ (s.isEnabledFor n i).1.lg m = { s.lg m with cache := (s.lg m).cache.set i (decide (s.eff n ≤ i)) }) := by
  rcases look_enabled s n m i with h | ⟨rfl, l, hl, -, h⟩
  · exact .inl (by simp [Logging.lg, h])
  · refine .inr ⟨rfl, ?_⟩
    simp [Logging.lg, h, hl, eff_chain]

/-- A name that is neither that of a `StdioLogSender`'s logger nor below one. -/
def PlainName (m : LogName) : Prop := ∀ p, stdioName p ∉ logPrefixes m

/-- The state of logging as a viewer needs it: its handler is at the loggers `A`, once; and what loggers remember about levels is right. -/
structure SeenInv (k : Nat) (A : LogName → Bool) (s : Logging) : Prop where
  handlers : ∀ m, (s.lg m).handlers.count (.user k) = if A m then 1 else 0
  cache : ∀ m, PlainName m → ∀ i b, (s.lg m).cache.get? i = some b → b = decide (s.eff m ≤ i)

theorem seen_init (k : Nat) : SeenInv k (fun _ => false) {} where
  handlers m := by
    simp only [Logging.lg, Logging.look, Dict.get?]
    split <;> rfl
  cache m hm i b h := by
    simp only [Logging.lg, Logging.look, Dict.get?] at h
    split at h <;> simp [Dict.get?] at h

/-- states with the same loggers -/
theorem seen_congr {k A} {s s' : Logging} (h : SeenInv k A s) (hl : ∀ m, s'.lg m = s.lg m) : SeenInv k A s' where
  handlers m := by rw [hl]; exact h.handlers m
  cache m hm i b hb := by
    rw [hl] at hb
    rw [eff_congr (s := s) fun p _ => by rw [hl]]
    exact h.cache m hm i b hb

/-- a change of one logger that keeps what counts -/
theorem seen_modify {k A} {s : Logging} (h : SeenInv k A s) (n : LogName) (f : PyLogger → PyLogger) (hs : (s.look n).isSome)
    (h1 : (f (s.lg n)).handlers.count (.user k) = (s.lg n).handlers.count (.user k)) (h2 : (f (s.lg n)).cache = (s.lg n).cache)
    (h3 : (f (s.lg n)).level = (s.lg n).level ∨ ∃ p, n = stdioName p) : SeenInv k A (s.modify n f) where
  handlers m := by
    rw [lg_modify s n m f hs]
    split
    · subst_vars; rw [h1]; exact h.handlers _
    · exact h.handlers m
  cache m hm i b hb := by
    have he : (s.modify n f).eff m = s.eff m := by
      apply eff_congr
      intro p hp
      rw [lg_modify s n p f hs]
      split
      · subst_vars
        rcases h3 with h3 | ⟨q, rfl⟩
        · exact h3
        · exact absurd hp (hm q)
      · rfl
    rw [he]
    apply h.cache m hm i b
    rw [lg_modify s n m f hs] at hb
    split at hb
    · subst_vars; rwa [h2] at hb
    · exact hb

theorem seen_getLogger {k A} {s : Logging} (h : SeenInv k A s) (n : LogName) : SeenInv k A (s.getLogger n) := seen_congr h (lg_getLogger s n)

theorem seen_setLevel {k A} {s : Logging} (h : SeenInv k A s) (n : LogName) (i : Int) (hs : (s.look n).isSome) : SeenInv k A (s.setLevel n i) where
  handlers m := by rw [lg_setLevel s n m i hs]; exact h.handlers m
  cache m hm j b hb := by rw [lg_setLevel s n m i hs] at hb; simp [Dict.get?] at hb

theorem seen_addHandler {k A} {s : Logging} (h : SeenInv k A s) (n : LogName) {x : LogHandlerObj} (hx : x ≠ .user k) (hs : (s.look n).isSome) : SeenInv k A (s.addHandler n x) := by
  apply seen_modify h n _ hs
  · split
    · rfl
    · simp [List.count_append, hx]
  · split <;> rfl
  · left; split <;> rfl

/-- the viewer's own handler -/
theorem seen_added {k A} {s : Logging} (h : SeenInv k A s) (n : LogName) (hs : (s.look n).isSome) : SeenInv k (fun m => A m || m = n) (s.addHandler n (.user k)) where
  handlers m := by
    rw [Logging.addHandler, lg_modify s n m _ hs]
    have hc := h.handlers m
    by_cases hn : n = m
    · subst hn
      rw [if_pos rfl]
      by_cases hmem : LogHandlerObj.user k ∈ (s.lg n).handlers
      · have : 0 < (s.lg n).handlers.count (.user k) := List.count_pos_iff.2 hmem
        rw [if_pos hmem, hc]
        rw [hc] at this
        split at this <;> simp_all
      · have : (s.lg n).handlers.count (.user k) = 0 := List.count_eq_zero.2 hmem
        rw [if_neg hmem]
        simp [List.count_append, this]
    · rw [if_neg hn, hc]
      simp [Ne.symm hn]
  cache m hm i b hb := by
    have hl : ∀ p, ((s.addHandler n (.user k)).lg p).level = (s.lg p).level ∧ ((s.addHandler n (.user k)).lg p).cache = (s.lg p).cache := by
      intro p
      rw [Logging.addHandler, lg_modify s n p _ hs]
      split
      · split <;> exact ⟨rfl, rfl⟩
      · exact ⟨rfl, rfl⟩
    rw [eff_congr (s := s) fun p _ => (hl p).1]
    rw [(hl m).2] at hb
    exact h.cache m hm i b hb

theorem seen_enabled {k A} {s : Logging} (h : SeenInv k A s) (n : LogName) (i : Int) : SeenInv k A (s.isEnabledFor n i).1 := by
  have hl : ∀ p, ((s.isEnabledFor n i).1.lg p).level = (s.lg p).level := by
    intro p
    rcases lg_enabled s n p i with hx | ⟨-, hx⟩ <;> rw [hx]
  refine ⟨fun m => ?_, fun m hm j b hb => ?_⟩
  · rcases lg_enabled s n m i with hx | ⟨-, hx⟩ <;> rw [hx] <;> exact h.handlers m
  · rw [eff_congr (s := s) fun p _ => hl p]
    rcases lg_enabled s n m i with hx | ⟨rfl, hx⟩
    · rw [hx] at hb; exact h.cache m hm j b hb
    · rw [hx] at hb
      simp only [Dict.get?_set] at hb
      split at hb
      · cases hb; subst_vars; rfl
      · exact h.cache m hm j b hb

/-- The loggers to which an event adds the handler `k`. -/
def LoggingEv.adds (k : Nat) : LoggingEv → LogName → Bool
  | .addHandler n j, m => j = k ∧ m = n
  | _, _ => false

theorem seen_step {k A} {s : Logging} (h : SeenInv k A s) (e : LoggingEv) : SeenInv k (fun m => A m || e.adds k m) (s.step e).1 := by
  have hlog : ∀ {s : Logging} n i, SeenInv k A s → SeenInv k A (s.logOut n i).1 := by
    intro s n i h
    rw [logOut_eq]
    exact seen_enabled h n i
  have hA : (fun m => A m || false) = A := by funext m; simp
  cases e with
  | addHandler n j =>
    by_cases hj : j = k
    · subst hj
      have := seen_added (seen_getLogger h n) n (look_getLogger_self s n)
      simpa [LoggingEv.adds, Logging.step] using this
    · have : (fun m => A m || (LoggingEv.addHandler n j).adds k m) = A := by funext m; simp [LoggingEv.adds, hj]
      rw [this]
      exact seen_addHandler (seen_getLogger h n) n (by simpa using hj) (look_getLogger_self s n)
  | getLogger n => simp only [LoggingEv.adds, hA]; exact seen_getLogger h n
  | setLevel n i => simp only [LoggingEv.adds, hA]; exact seen_setLevel (seen_getLogger h n) n i (look_getLogger_self s n)
  | propagate n b => simp only [LoggingEv.adds, hA]; exact seen_modify (seen_getLogger h n) n _ (look_getLogger_self s n) rfl rfl (.inl rfl)
  | log n i => simp only [LoggingEv.adds, hA]; exact hlog n i (seen_getLogger h n)
  | logExceptions =>
    simp only [LoggingEv.adds, hA]
    exact seen_congr h fun m => by simp [Logging.lg, Logging.look, Logging.step, (logExceptions_loggers s).1]
  | setSysHook x => simp only [LoggingEv.adds, hA]; exact seen_congr h fun m => rfl
  | setThreadHook x => simp only [LoggingEv.adds, hA]; exact seen_congr h fun m => rfl
  | line p err => simp only [LoggingEv.adds, hA]; exact hlog _ _ h
  | unhandled t =>
    simp only [LoggingEv.adds, hA]
    simp only [Logging.step]
    generalize (if t = true then s.threadHook else s.sysHook) = x
    cases x with
    | log => exact hlog _ _ h
    | builtin => exact h
    | user k => exact h
  | stdioSender p a lvl =>
    simp only [LoggingEv.adds, hA]
    have h1 := seen_getLogger h (stdioName p)
    have hs1 := look_getLogger_self s (stdioName p)
    have h2 : SeenInv k A ((s.getLogger (stdioName p)).addSender (stdioName p) a) ∧ (((s.getLogger (stdioName p)).addSender (stdioName p) a).look (stdioName p)).isSome := by
      cases a with
      | none => exact ⟨h1, hs1⟩
      | some a =>
        have h2 := seen_modify h1 (stdioName p) (fun l => { l with propagate := false }) hs1 rfl rfl (.inl rfl)
        have hs2 : (((s.getLogger (stdioName p)).modify (stdioName p) fun l => { l with propagate := false }).look (stdioName p)).isSome := by
          rw [look_modify_isSome]; exact hs1
        dsimp only [Logging.addSender]
        generalize (s.getLogger (stdioName p)).modify (stdioName p) (fun l => { l with propagate := false }) = s2 at h2 hs2 ⊢
        have h3 : SeenInv k A { s2 with made := s2.made + 1 } := seen_congr h2 fun m => rfl
        refine ⟨seen_addHandler (x := .sender s2.made a) h3 _ (by simp) hs2, ?_⟩
        rw [Logging.addHandler, look_modify_isSome]
        exact hs2
    cases lvl with
    | none => exact h2.1
    | some i => exact seen_modify h2.1 _ _ h2.2 rfl rfl (.inr ⟨p, rfl⟩)
  | basicConfig v x y =>
    simp only [LoggingEv.adds, hA]
    have h1 := seen_getLogger h []
    have hs1 := look_getLogger_self s []
    simp only [Logging.step, Logging.basicConfig]
    cases hv : checkLevel v with
    | error e => exact h1
    | ok i =>
      have h2 := seen_setLevel h1 [] i hs1
      have hs2 : (((s.getLogger []).setLevel [] i).look []).isSome := by rw [look_setLevel_isSome]; exact hs1
      simp only
      generalize (s.getLogger []).setLevel [] i = s2 at h2 hs2 ⊢
      have h3 : SeenInv k A s2.addDisplay := by
        have h3 : SeenInv k A { s2 with made := s2.made + 1 } := seen_congr h2 fun m => rfl
        exact seen_addHandler (x := .display s2.made) h3 [] (by simp) hs2
      generalize s2.addDisplay = s3 at h3 ⊢
      have h4 : SeenInv k A (if x then s3.logExceptions else s3) := by
        cases x with
        | false => exact h3
        | true => exact seen_congr h3 fun m => by simp [Logging.lg, Logging.look, (logExceptions_loggers s3).1]
      generalize (if x = true then s3.logExceptions else s3) = s4 at h4 ⊢
      cases y with
      | false => exact h4
      | true =>
        simp only [if_true, Logging.startServer]
        cases hs : s4.server with
        | true => exact h4
        | false => exact seen_congr h4 fun m => rfl

/-- whether a level is enabled, for a logger that exists -/
theorem seen_isEnabled {k A} {s : Logging} (h : SeenInv k A s) {n : LogName} (hp : PlainName n) (hs : (s.look n).isSome) (i : Int) : (s.isEnabledFor n i).2 = decide (s.eff n ≤ i) := by
  obtain ⟨l, hl⟩ := Option.isSome_iff_exists.1 hs
  have hl' : s.loggers.get? n = some l := hl
  have hlg : s.lg n = l := by simp [Logging.lg, hl]
  unfold Logging.isEnabledFor
  rw [hl']
  dsimp only
  split
  · rename_i b hb
    exact h.cache n hp i b (by rw [hlg]; exact hb)
  · simp [eff_chain]

/-- The handlers of `n` see the records of `m`: `n` is `m` or above it, and the loggers from `m` up to below `n` propagate. -/
def Logging.Reaches (s : Logging) (m n : LogName) : Prop := n <+: m ∧ ∀ p, p <+: m → n.length < p.length → ∀ l, s.look p = some l → l.propagate = true

theorem mem_logPrefixes {p m : LogName} : p ∈ logPrefixes m ↔ p <+: m := by
  simp only [logPrefixes, List.mem_map, List.mem_reverse, List.mem_range]
  constructor
  · rintro ⟨k, -, rfl⟩; exact List.take_prefix k m
  · intro h
    exact ⟨p.length, Nat.lt_succ_of_le h.length_le, (List.prefix_iff_eq_take.1 h).symm⟩

theorem count_handlers {k : Nat} {A : LogName → Bool} {s : Logging} {n : LogName} (h : ∀ m, (s.lg m).handlers.count (.user k) = if A m then 1 else 0) (hA : ∀ m, A m = true ↔ m = n) :
    ∀ (j : Nat) (m : LogName), m.length = j →
      ((s.Reaches m n → (chainHandlers ((logPrefixes m).map s.lg)).count (.user k) = 1) ∧ (¬ s.Reaches m n → (chainHandlers ((logPrefixes m).map s.lg)).count (.user k) = 0)) := by
  have hprop : ∀ p, ((s.lg p).propagate = true ↔ ∀ l, s.look p = some l → l.propagate = true) := by
    intro p
    simp only [Logging.lg]
    cases s.look p <;> simp
  intro j
  induction j with
  | zero =>
    intro m hm
    cases List.length_eq_zero_iff.1 hm
    have hc : (chainHandlers ((logPrefixes []).map s.lg)).count (.user k) = if A [] then 1 else 0 := by
      rw [logPrefixes_nil]
      simp only [List.map_cons, List.map_nil, chainHandlers]
      rw [← h []]
      split <;> simp
    rw [hc]
    refine ⟨fun hr => ?_, fun hr => ?_⟩
    · have : n = [] := by simpa using hr.1
      rw [if_pos ((hA []).2 this.symm)]
    · rw [if_neg]
      intro ha
      apply hr
      rw [← (hA []).1 ha]
      exact ⟨List.prefix_refl _, fun p hp hlt => by rw [List.prefix_nil.1 hp] at hlt; simp at hlt⟩
  | succ j ih =>
    intro m hm
    have hne : m ≠ [] := by rintro rfl; cases hm
    obtain ⟨ih1, ih2⟩ := ih m.dropLast (by simp [hm])
    have hc : (chainHandlers ((logPrefixes m).map s.lg)).count (.user k) =
        (if A m then 1 else 0) + if (s.lg m).propagate then (chainHandlers ((logPrefixes m.dropLast).map s.lg)).count (.user k) else 0 := by
      rw [logPrefixes_cons m hne]
      simp only [List.map_cons, chainHandlers, List.count_append, h m]
      cases (s.lg m).propagate <;> simp
    have hpre : ∀ p, p <+: m ↔ p = m ∨ p <+: m.dropLast := by
      intro p
      rw [← mem_logPrefixes, logPrefixes_cons m hne, List.mem_cons, mem_logPrefixes]
    have hlen : m.dropLast.length < m.length := by simp [hm]
    by_cases hmn : m = n
    · subst hmn
      have hno : ¬ s.Reaches m.dropLast m := fun hr => absurd hr.1.length_le (by omega)
      rw [hc, if_pos ((hA m).2 rfl), ih2 hno]
      refine ⟨fun _ => by split <;> rfl, fun hr => absurd ?_ hr⟩
      exact ⟨List.prefix_refl _, fun p hp hlt => absurd hp.length_le (by omega)⟩
    · have hAm : A m = false := by cases ha : A m with | false => rfl | true => exact absurd ((hA m).1 ha) hmn
      rw [hc, hAm]
      simp only [Bool.false_eq_true, if_false, Nat.zero_add]
      have key : s.Reaches m n ↔ (s.lg m).propagate = true ∧ s.Reaches m.dropLast n := by
        constructor
        · rintro ⟨h1, h2⟩
          have h1' : n <+: m.dropLast := by
            rcases (hpre n).1 h1 with h | h
            · exact absurd h.symm hmn
            · exact h
          refine ⟨(hprop m).2 (h2 m (List.prefix_refl _) ?_), h1', fun p hp => h2 p ((hpre p).2 (.inr hp))⟩
          exact Nat.lt_of_le_of_lt h1'.length_le hlen
        · rintro ⟨h1, h2, h3⟩
          refine ⟨(hpre n).2 (.inr h2), fun p hp hlt => ?_⟩
          rcases (hpre p).1 hp with rfl | hp
          · exact (hprop _).1 h1
          · exact h3 p hp hlt
      rw [key]
      cases hp : (s.lg m).propagate with
      | true =>
        refine ⟨fun hr => ?_, fun hr => ?_⟩
        · rw [if_pos rfl]; exact ih1 hr.2
        · rw [if_pos rfl]; exact ih2 fun h => hr ⟨rfl, h⟩
      | false => exact ⟨fun hr => (Bool.false_ne_true hr.1).elim, fun _ => rfl⟩

end Verif
