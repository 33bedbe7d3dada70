import Verif.Model.LogViewer
import Verif.Proof.LogState
/-!
# C108: the log viewer shows the records of its logger

/repo/teleprox/log/logviewer.py.
-/
namespace Verif

/-- The level that counts for logger `m` is `v`: that of the nearest logger, from `m` up, which has one; 0 if none has. -/
def Logging.IsLevel (s : Logging) (m : LogName) (v : Int) : Prop :=
  (v ≠ 0 ∧ ∃ p l, p <+: m ∧ s.look p = some l ∧ l.level = v ∧ ∀ q l', q <+: m → p.length < q.length → s.look q = some l' → l'.level = 0) ∨
  (v = 0 ∧ ∀ q l', q <+: m → s.look q = some l' → l'.level = 0)

theorem lg_level (s : Logging) (q : LogName) : (s.lg q).level = 0 ↔ ∀ l, s.look q = some l → l.level = 0 := by
  simp only [Logging.lg]
  cases s.look q <;> simp

theorem eff_isLevel (s : Logging) : ∀ (j : Nat) (m : LogName), m.length = j → s.IsLevel m (s.eff m) := by
  intro j
  induction j with
  | zero =>
    intro m hm
    cases List.length_eq_zero_iff.1 hm
    have he : s.eff [] = (s.lg []).level := by
      simp only [Logging.eff, logPrefixes_nil, List.map_cons, List.map_nil, effectiveLevel]
      split
      · rfl
      · rename_i h; exact (Classical.byContradiction h).symm
    by_cases hz : (s.lg []).level = 0
    · right
      refine ⟨he.trans hz, fun q l hq hl => ?_⟩
      rw [List.prefix_nil.1 hq] at hl
      exact (lg_level s []).1 hz l hl
    · left
      refine ⟨fun h => hz (he.symm.trans h), ?_⟩
      cases hx : s.look [] with
      | none => simp [Logging.lg, hx] at hz
      | some l =>
        refine ⟨[], l, List.prefix_refl _, hx, ?_, fun q l' hq hlt => ?_⟩
        · rw [he]; simp [Logging.lg, hx]
        · rw [List.prefix_nil.1 hq] at hlt; simp at hlt
  | succ j ih =>
    intro m hm
    have hne : m ≠ [] := by rintro rfl; cases hm
    have hpre : ∀ p, p <+: m ↔ p = m ∨ p <+: m.dropLast := by
      intro p
      rw [← mem_logPrefixes, logPrefixes_cons m hne, List.mem_cons, mem_logPrefixes]
    have he : s.eff m = if (s.lg m).level ≠ 0 then (s.lg m).level else s.eff m.dropLast := by
      simp only [Logging.eff, logPrefixes_cons m hne, List.map_cons, effectiveLevel]
    by_cases hz : (s.lg m).level = 0
    · rw [he, if_neg (fun h => h hz)]
      have hz' := (lg_level s m).1 hz
      rcases ih m.dropLast (by simp [hm]) with ⟨h1, p, l, h2, h3, h4, h5⟩ | ⟨h1, h2⟩
      · left
        refine ⟨h1, p, l, (hpre p).2 (.inr h2), h3, h4, fun q l' hq hlt hl => ?_⟩
        rcases (hpre q).1 hq with rfl | hq
        · exact hz' l' hl
        · exact h5 q l' hq hlt hl
      · right
        refine ⟨h1, fun q l' hq hl => ?_⟩
        rcases (hpre q).1 hq with rfl | hq
        · exact hz' l' hl
        · exact h2 q l' hq hl
    · left
      rw [he, if_pos hz]
      refine ⟨hz, ?_⟩
      cases hx : s.look m with
      | none => simp [Logging.lg, hx] at hz
      | some l => exact ⟨m, l, List.prefix_refl _, hx, by simp [Logging.lg, hx], fun q l' hq hlt => absurd hq.length_le (by omega)⟩

theorem isLevel_unique {s : Logging} {m : LogName} {v w : Int} (h1 : s.IsLevel m v) (h2 : s.IsLevel m w) : v = w := by
  rcases h1 with ⟨hv, p, l, a1, a2, a3, a4⟩ | ⟨hv, a⟩ <;> rcases h2 with ⟨hw, q, l', b1, b2, b3, b4⟩ | ⟨hw, b⟩
  · rcases Nat.lt_trichotomy p.length q.length with h | h | h
    · exact absurd (b3.symm.trans (a4 q l' b1 h b2)) hw
    · have : p = q := by rw [List.prefix_iff_eq_take.1 a1, List.prefix_iff_eq_take.1 b1, h]
      subst this
      rw [a2] at b2; cases b2
      exact a3.symm.trans b3
    · exact absurd (a3.symm.trans (b4 p l a1 h a2)) hv
  · exact absurd (a3.symm.trans (b p l a1 a2)) hv
  · exact absurd (b3.symm.trans (a q l' b1 b2)) hw
  · exact hv.trans hw.symm

/-! ## Histories with a viewer -/

/-- What an event means for logging. -/
def ViewEv.logging? (k : Nat) : ViewEv → Option LoggingEv
  | .create n => some (.addHandler n k)
  | .inThread _ e => some e
  | _ => none

theorem callHandler_logging (s : ViewSt) (t : Nat) (r : ViewRec) : (s.callHandler t r).logging = s.logging ∧ (s.callHandler t r).level = s.level ∧ (s.callHandler t r).serial = s.serial := by
  simp only [ViewSt.callHandler, ViewSt.handle, ViewSt.emit]
  repeat' split
  all_goals exact ⟨rfl, rfl, rfl⟩

theorem callHandlers_logging (t : Nat) (r : ViewRec) : ∀ (l : List LogSink) (s : ViewSt),
    (l.foldl (fun s _ => s.callHandler t r) s).logging = s.logging ∧ (l.foldl (fun s _ => s.callHandler t r) s).level = s.level ∧
      (l.foldl (fun s _ => s.callHandler t r) s).serial = s.serial
  | [], s => ⟨rfl, rfl, rfl⟩
  | _ :: l, s => by
    obtain ⟨h1, h2, h3⟩ := callHandlers_logging t r l (s.callHandler t r)
    obtain ⟨g1, g2, g3⟩ := callHandler_logging s t r
    exact ⟨h1.trans g1, h2.trans g2, h3.trans g3⟩

theorem see_logging (k t : Nat) : ∀ (o : List LoggingOut) (s : ViewSt), (ViewSt.see k t s o).logging = s.logging
  | [], s => rfl
  | .record n i sinks :: o, s => by
    rw [ViewSt.see, see_logging k t o]
    exact (callHandlers_logging t _ _ s).1
  | .raised _ :: o, s => see_logging k t o s
  | .hook _ :: o, s => see_logging k t o s

theorem view_logging_step (k : Nat) (s : ViewSt) (e : ViewEv) : (s.step k e).logging = match e.logging? k with | some x => (s.logging.step x).1 | none => s.logging := by
  cases e with
  | create n => rfl
  | inThread t x => simp only [ViewSt.step, ViewEv.logging?]; exact see_logging k t _ _
  | handlerLevel i => rfl
  | addFilter f => rfl
  | turn => simp only [ViewSt.step, ViewEv.logging?]; split <;> rfl

/-- The events of a history that add the viewer's handler to logger `m`. -/
def ViewEv.addsTo (k : Nat) (m : LogName) (e : ViewEv) : Bool := match e.logging? k with | some x => x.adds k m | none => false

theorem view_seen (k : Nat) (es : List ViewEv) : ∀ {A : LogName → Bool} {s : ViewSt}, SeenInv k A s.logging →
    SeenInv k (fun m => A m || es.any (ViewEv.addsTo k m)) (ViewSt.run k s es).logging := by
  induction es with
  | nil => intro A s h; simpa [ViewSt.run] using h
  | cons e es ih =>
    intro A s h
    have h1 : SeenInv k (fun m => A m || e.addsTo k m) (s.step k e).logging := by
      rw [view_logging_step]
      cases hx : e.logging? k with
      | none => simpa [ViewEv.addsTo, hx] using h
      | some x => simpa [ViewEv.addsTo, hx] using seen_step h x
    have := ih h1
    simpa [ViewSt.run, Bool.or_assoc] using this

/-- In this history one viewer is made, for logger `n`, and its handler is added to no other logger. -/
def ViewAt (n : LogName) (k : Nat) (es : List ViewEv) : Prop :=
  .create n ∈ es ∧ ∀ e ∈ es, (∀ m, e = .create m → m = n) ∧ ∀ t m, e ≠ .inThread t (.addHandler m k)

theorem viewAt_seen {n : LogName} {k : Nat} {es : List ViewEv} (h : ViewAt n k es) : ∃ A, SeenInv k A (ViewSt.run k {} es).logging ∧ ∀ m, A m = true ↔ m = n := by
  refine ⟨_, view_seen k es (s := {}) (seen_init k), fun m => ?_⟩
  simp only [Bool.false_or, List.any_eq_true]
  constructor
  · rintro ⟨e, he, ha⟩
    obtain ⟨h1, h2⟩ := h.2 e he
    cases e with
    | create n' =>
      have : m = n' := by simpa [ViewEv.addsTo, ViewEv.logging?, LoggingEv.adds] using ha
      rw [this]; exact h1 n' rfl
    | inThread t x =>
      cases x with
      | addHandler n' j =>
        have : j = k ∧ m = n' := by simpa [ViewEv.addsTo, ViewEv.logging?, LoggingEv.adds] using ha
        exact absurd (by rw [this.1]) (h2 t n')
      | _ => simp [ViewEv.addsTo, ViewEv.logging?, LoggingEv.adds] at ha
    | _ => simp [ViewEv.addsTo, ViewEv.logging?] at ha
  · rintro rfl
    exact ⟨_, h.1, by simp [ViewEv.addsTo, ViewEv.logging?, LoggingEv.adds]⟩

/-! ## One record -/

theorem filter_handle (s : Logging) (m : LogName) (i : Int) (k : Nat) :
    ((s.handle m i).filter (· = .handler (.user k))).length = (chainHandlers ((logPrefixes m).map s.lg)).count (.user k) := by
  unfold Logging.handle
  rw [handlers_chain]
  split
  · rename_i h
    rw [h]
    split <;> rfl
  · rename_i hs _
    rw [List.count, List.countP_eq_length_filter, List.filter_map, List.length_map]
    congr 1
    apply List.filter_congr
    intro x _
    rw [Bool.eq_iff_iff]
    simp

theorem chain_enabled (s : Logging) (n m : LogName) (i : Int) : chainHandlers ((logPrefixes m).map (s.isEnabledFor n i).1.lg) = chainHandlers ((logPrefixes m).map s.lg) := by
  induction logPrefixes m with
  | nil => rfl
  | cons p ps ih =>
    simp only [List.map_cons, chainHandlers, ih]
    rcases lg_enabled s n p i with h | ⟨-, h⟩ <;> rw [h]

/-- how often a record goes to the handler -/
theorem log_count (s : Logging) (m : LogName) (i : Int) (k : Nat) :
    ((s.log m i).2.filter (· = .handler (.user k))).length = if (s.isEnabledFor m i).2 then (chainHandlers ((logPrefixes m).map s.lg)).count (.user k) else 0 := by
  have := filter_handle (s.isEnabledFor m i).1 m i k
  rw [chain_enabled] at this
  unfold Logging.log
  generalize s.isEnabledFor m i = x at this
  obtain ⟨a, b⟩ := x
  cases b with
  | true => simpa using this
  | false => rfl

/-- **C108** After any history in which a viewer was made for logger `n`: a record that thread `t` logs with logger `m` at level `i` is given to the viewer, exactly once, if the logger lets
it through, the viewer's logger sees it and the level of the viewer's handler is no higher; it is shown at once in the thread of the widget, and put in its queue by others.
Otherwise the viewer gets nothing. -/
theorem C108_seen_partial {n : LogName} {k : Nat} {es : List ViewEv} (h : ViewAt n k es) (t : Nat) {m : LogName} (hm : PlainName m) (i : Int) {v : Int}
    (hlv : (ViewSt.run k {} es).logging.IsLevel m v) :
    let s := ViewSt.run k {} es
    let s' := s.step k (.inThread t (.log m i))
    (v ≤ i ∧ s.logging.Reaches m n ∧ s.level ≤ i →
      if t = 0 then s'.shown = s.shown ++ [⟨s.serial, t, m, i⟩] ∧ s'.queue = s.queue else s'.shown = s.shown ∧ s'.queue = s.queue ++ [⟨s.serial, t, m, i⟩]) ∧
    (¬ (v ≤ i ∧ s.logging.Reaches m n ∧ s.level ≤ i) → s'.shown = s.shown ∧ s'.queue = s.queue) := by
  intro s s'
  obtain ⟨A, hI, hA⟩ := viewAt_seen h
  have hv : s.logging.eff m = v := isLevel_unique (eff_isLevel _ _ m rfl) hlv
  change SeenInv k A s.logging at hI
  have hI' := seen_getLogger hI m
  have hen : ((s.logging.getLogger m).isEnabledFor m i).2 = decide (v ≤ i) := by
    rw [seen_isEnabled hI' hm (look_getLogger_self _ _), eff_congr (s := s.logging) (fun p _ => by rw [lg_getLogger]), hv]
  have hcnt := log_count (s.logging.getLogger m) m i k
  have hmap : (logPrefixes m).map (s.logging.getLogger m).lg = (logPrefixes m).map s.logging.lg := List.map_congr_left fun p _ => lg_getLogger _ _ _
  rw [hen, hmap] at hcnt
  obtain ⟨c1, c2⟩ := count_handlers hI.handlers hA _ m rfl
  have hs' : s' = ViewSt.see k t { s with logging := ((s.logging.getLogger m).logOut m i).1 } [.record m i ((s.logging.getLogger m).log m i).2] := by
    show ViewSt.step k s _ = _
    simp only [ViewSt.step, Logging.step]
    rw [logOut_eq]
  rw [hs']
  clear hs' s'
  generalize ((s.logging.getLogger m).logOut m i).1 = L
  simp only [ViewSt.see]
  generalize ((s.logging.getLogger m).log m i).2.filter (· = .handler (.user k)) = F at hcnt
  refine ⟨fun ⟨h1, h2, h3⟩ => ?_, fun hno => ?_⟩
  · have : F.length = 1 := by rw [hcnt]; simp [h1, c1 h2]
    match F, this with
    | [x], _ =>
      by_cases ht : t = 0 <;> simp [ViewSt.callHandler, ViewSt.handle, ViewSt.emit, h3, ht]
  · by_cases h12 : v ≤ i ∧ s.logging.Reaches m n
    · have h3 : ¬ s.level ≤ i := fun h3 => hno ⟨h12.1, h12.2, h3⟩
      have : F.length = 1 := by rw [hcnt]; simp [h12.1, c1 h12.2]
      match F, this with
      | [x], _ => simp [ViewSt.callHandler, h3]
    · have : F.length = 0 := by
        rw [hcnt]
        by_cases h1 : v ≤ i
        · simp [h1, c2 fun h2 => h12 ⟨h1, h2⟩]
        · simp [h1]
      cases List.length_eq_zero_iff.1 this
      exact ⟨rfl, rfl⟩

/-! ## All records -/

/-- the records of thread `t`, shown or about to be -/
def ViewSt.of (s : ViewSt) (t : Nat) : List ViewRec := (s.shown ++ s.queue).filter (·.thread = t)

/-- the invariant of histories in which each record goes to the viewer at most once -/
structure ViewInv (s : ViewSt) : Prop where
  old : ∀ r ∈ s.shown ++ s.queue, r.serial < s.serial
  queue : ∀ r ∈ s.queue, r.thread ≠ 0
  order : ∀ t, (s.of t).Pairwise (·.serial < ·.serial)

theorem viewInv_add {s : ViewSt} (h : ViewInv s) (t : Nat) (n : LogName) (i : Int) : ViewInv { s.emit t ⟨s.serial, t, n, i⟩ with serial := s.serial + 1 } := by
  have hold := h.old
  by_cases ht : t = 0
  · subst ht
    simp only [ViewSt.emit, if_true]
    refine ⟨fun r hr => ?_, h.queue, fun u => ?_⟩
    · simp only [List.append_assoc, List.mem_append, List.mem_singleton] at hr
      rcases hr with hr | rfl | hr
      · exact Nat.lt_succ_of_lt (hold r (List.mem_append_left _ hr))
      · exact Nat.lt_succ_self _
      · exact Nat.lt_succ_of_lt (hold r (List.mem_append_right _ hr))
    · have ho := h.order u
      simp only [ViewSt.of, List.filter_append] at ho ⊢
      by_cases hu : u = 0
      · subst hu
        have hq : s.queue.filter (fun r => decide (r.thread = 0)) = [] := by
          rw [List.filter_eq_nil_iff]
          intro r hr
          simpa using h.queue r hr
        rw [hq, List.append_nil] at ho ⊢
        rw [List.pairwise_append]
        refine ⟨ho, by simp, fun a ha b hb => ?_⟩
        have : b = ⟨s.serial, 0, n, i⟩ := by simpa using (List.mem_filter.1 hb).1
        subst this
        exact hold a (List.mem_append_left _ (List.mem_filter.1 ha).1)
      · have : [(⟨s.serial, 0, n, i⟩ : ViewRec)].filter (fun r => decide (r.thread = u)) = [] := by simp [Ne.symm hu]
        rw [this, List.append_nil]
        exact ho
  · simp only [ViewSt.emit, if_neg ht]
    refine ⟨fun r hr => ?_, fun r hr => ?_, fun u => ?_⟩
    · rw [← List.append_assoc] at hr
      rcases List.mem_append.1 hr with hr | hr
      · exact Nat.lt_succ_of_lt (hold r hr)
      · cases List.mem_singleton.1 hr; exact Nat.lt_succ_self _
    · rcases List.mem_append.1 hr with hr | hr
      · exact h.queue r hr
      · cases List.mem_singleton.1 hr; exact ht
    · have ho := h.order u
      simp only [ViewSt.of] at ho ⊢
      rw [← List.append_assoc, List.filter_append, List.pairwise_append]
      refine ⟨ho, ?_, fun a ha b hb => ?_⟩
      · exact List.Pairwise.filter _ (by simp)
      · have : b = ⟨s.serial, t, n, i⟩ := by simpa using (List.mem_filter.1 hb).1
        subst this
        exact hold a (List.mem_filter.1 ha).1

theorem viewInv_serial {s : ViewSt} (h : ViewInv s) : ViewInv { s with serial := s.serial + 1 } :=
  ⟨fun r hr => Nat.lt_succ_of_lt (h.old r hr), h.queue, h.order⟩

/-- outputs in which each record goes to the handler at most once -/
def OnceEach (k : Nat) (o : List LoggingOut) : Prop := ∀ n i sinks, .record n i sinks ∈ o → (sinks.filter (· = .handler (.user k))).length ≤ 1

theorem viewInv_see (k t : Nat) : ∀ (o : List LoggingOut) {s : ViewSt}, OnceEach k o → ViewInv s → ViewInv (ViewSt.see k t s o)
  | [], s, _, h => h
  | .record n i sinks :: o, s, ho, h => by
    rw [ViewSt.see]
    refine viewInv_see k t o (fun n i l hl => ho n i l (List.mem_cons_of_mem _ hl)) ?_
    have := ho n i sinks List.mem_cons_self
    generalize sinks.filter (· = .handler (.user k)) = F at this
    match F, this with
    | [], _ => exact viewInv_serial h
    | [x], _ =>
      simp only [List.foldl_cons, List.foldl_nil, ViewSt.callHandler]
      split
      · have := viewInv_add h t n i
        have hse : (s.handle t ⟨s.serial, t, n, i⟩).serial = s.serial := by simp only [ViewSt.handle, ViewSt.emit]; split <;> rfl
        rw [hse]
        exact this
      · exact viewInv_serial h
    | x :: y :: F, h2 => simp at h2
  | .raised _ :: o, s, ho, h => viewInv_see k t o (fun n i l hl => ho n i l (List.mem_cons_of_mem _ hl)) h
  | .hook _ :: o, s, ho, h => viewInv_see k t o (fun n i l hl => ho n i l (List.mem_cons_of_mem _ hl)) h

theorem count_le {k : Nat} {A : LogName → Bool} {s : Logging} {n : LogName} (h : ∀ m, (s.lg m).handlers.count (.user k) = if A m then 1 else 0) (hA : ∀ m, A m = true → m = n)
    (m : LogName) : (chainHandlers ((logPrefixes m).map s.lg)).count (.user k) ≤ 1 := by
  by_cases hn : A n = true
  · have hA' : ∀ m, A m = true ↔ m = n := fun m => ⟨hA m, fun h => h ▸ hn⟩
    obtain ⟨h1, h2⟩ := count_handlers h hA' _ m rfl
    by_cases hr : s.Reaches m n
    · rw [h1 hr]; exact Nat.le_refl _
    · rw [h2 hr]; exact Nat.zero_le _
  · have hz : ∀ m, (s.lg m).handlers.count (.user k) = 0 := fun m => by
      rw [h m, if_neg]
      intro ha
      exact hn (hA m ha ▸ ha)
    have : ∀ ps : List LogName, (chainHandlers (ps.map s.lg)).count (.user k) = 0 := by
      intro ps
      induction ps with
      | nil => rfl
      | cons p ps ih =>
        simp only [List.map_cons, chainHandlers, List.count_append, hz p, Nat.zero_add]
        split
        · exact ih
        · rfl
    rw [this]; exact Nat.zero_le _

theorem once_step {k : Nat} {A : LogName → Bool} {s : Logging} {n : LogName} (h : SeenInv k A s) (hA : ∀ m, A m = true → m = n) (e : LoggingEv) : OnceEach k (s.step e).2 := by
  have hlog : ∀ {s : Logging} m i, SeenInv k A s → OnceEach k (s.logOut m i).2 := by
    intro s m i h m' i' sinks hs
    rw [logOut_eq] at hs
    simp only [List.mem_singleton, LoggingOut.record.injEq] at hs
    obtain ⟨rfl, rfl, rfl⟩ := hs
    rw [log_count]
    split
    · exact count_le h.handlers hA _
    · exact Nat.zero_le _
  have hnil : OnceEach k [] := fun _ _ _ h => by simp at h
  cases e with
  | log m i => exact hlog m i (seen_getLogger h m)
  | line p err => exact hlog _ _ h
  | unhandled t =>
    simp only [Logging.step]
    generalize (if t = true then s.threadHook else s.sysHook) = x
    cases x with
    | log => exact hlog _ _ h
    | builtin => intro _ _ _ h; simp [Logging.unhandled] at h
    | user k => intro _ _ _ h; simp [Logging.unhandled] at h
  | basicConfig v x y =>
    simp only [Logging.step]
    split
    · exact hnil
    · intro _ _ _ h; simp at h
  | _ => exact hnil

/-- **C108** (all records) In every history in which the viewer's handler is at no logger but `n`: what each thread has logged is shown in the order in which it was logged, no record twice. -/
theorem C108_order (n : LogName) (k : Nat) (es : List ViewEv) (h : ∀ e ∈ es, (∀ m, e = .create m → m = n) ∧ ∀ t m, e ≠ .inThread t (.addHandler m k)) (t : Nat) :
    ((ViewSt.run k {} es).of t).Pairwise (·.serial < ·.serial) := by
  have key : ∀ (es : List ViewEv), (∀ e ∈ es, (∀ m, e = .create m → m = n) ∧ ∀ t m, e ≠ .inThread t (.addHandler m k)) → ∀ {A : LogName → Bool} {s : ViewSt},
      SeenInv k A s.logging → (∀ m, A m = true → m = n) → ViewInv s → ViewInv (ViewSt.run k s es) := by
    intro es
    induction es with
    | nil => intro _ A s _ _ hv; exact hv
    | cons e es ih =>
      intro h A s hI hA hv
      obtain ⟨h1, h2⟩ := h e List.mem_cons_self
      have hI' : SeenInv k (fun m => A m || e.addsTo k m) (s.step k e).logging := by
        have := view_seen k [e] hI
        simpa [ViewSt.run] using this
      refine ih (fun e he => h e (List.mem_cons_of_mem _ he)) hI' ?_ ?_
      · intro m hm
        rcases Bool.or_eq_true_iff.1 hm with hm | hm
        · exact hA m hm
        · cases e with
          | create n' =>
            have : m = n' := by simpa [ViewEv.addsTo, ViewEv.logging?, LoggingEv.adds] using hm
            rw [this]; exact h1 n' rfl
          | inThread t x =>
            cases x with
            | addHandler n' j =>
              have : j = k ∧ m = n' := by simpa [ViewEv.addsTo, ViewEv.logging?, LoggingEv.adds] using hm
              exact absurd (by rw [this.1]) (h2 t n')
            | _ => simp [ViewEv.addsTo, ViewEv.logging?, LoggingEv.adds] at hm
          | _ => simp [ViewEv.addsTo, ViewEv.logging?] at hm
      · cases e with
        | create n' => exact ⟨hv.old, hv.queue, hv.order⟩
        | handlerLevel i => exact ⟨hv.old, hv.queue, hv.order⟩
        | addFilter f => exact ⟨hv.old, hv.queue, hv.order⟩
        | inThread t x =>
          have ho := once_step hI hA x
          simp only [ViewSt.step]
          exact viewInv_see k t _ ho ⟨hv.old, hv.queue, hv.order⟩
        | turn =>
          simp only [ViewSt.step]
          split
          · exact hv
          · rename_i r q hq
            have e1 : (s.shown ++ [r]) ++ q = s.shown ++ s.queue := by rw [hq, List.append_assoc]; rfl
            refine ⟨fun x hx => hv.old x (e1 ▸ hx), fun x hx => hv.queue x (by rw [hq]; exact List.mem_cons_of_mem _ hx), fun t => ?_⟩
            have := hv.order t
            simp only [ViewSt.of] at this ⊢
            rw [e1]; exact this
  exact (key es h (s := {}) (seen_init k) (by simp) ⟨by simp, by simp, fun t => by simp [ViewSt.of]⟩).order t

/-- **C108** (delivery) As many turns of the widget's event loop as there are records in its queue show them all, in order. -/
theorem C108_delivered (k : Nat) : ∀ (q : List ViewRec) (s : ViewSt), s.queue = q →
    (ViewSt.run k s (List.replicate q.length .turn)).shown = s.shown ++ q ∧ (ViewSt.run k s (List.replicate q.length .turn)).queue = []
  | [], s, h => ⟨by simp [ViewSt.run], h⟩
  | r :: q, s, h => by
    have := C108_delivered k q (s.step k .turn) (by simp [ViewSt.step, h])
    simp only [List.length_cons, List.replicate_succ]
    refine ⟨?_, this.2⟩
    have h1 := this.1
    have h2 : (s.step k .turn).shown = s.shown ++ [r] := by simp [ViewSt.step, h]
    rw [h2] at h1
    simpa [ViewSt.run] using h1

/-- **C108 fails** for filters: whatever filters the user adds to the viewer's handler, it shows the same records. -/
theorem C108_fails (k : Nat) (es : List ViewEv) (s : ViewSt) :
    (ViewSt.run k s (es.filter fun | .addFilter _ => false | _ => true)).shown = (ViewSt.run k s es).shown := by
  have hcall : ∀ (s u : ViewSt) t r, { s with rejects := [] } = { u with rejects := [] } → ({ s.callHandler t r with rejects := [] } : ViewSt) = { u.callHandler t r with rejects := [] } := by
    intro s u t r h
    obtain ⟨a1, a2, a3, a4, a5, a6⟩ := s
    obtain ⟨b1, b2, b3, b4, b5, b6⟩ := u
    simp only [ViewSt.mk.injEq, true_and] at h
    obtain ⟨rfl, rfl, rfl, rfl, rfl⟩ := h
    simp only [ViewSt.callHandler, ViewSt.handle, ViewSt.emit]
    repeat' split
    all_goals rfl
  have hcalls : ∀ (l : List LogSink) (s u : ViewSt) t r, { s with rejects := [] } = { u with rejects := [] } →
      ({ l.foldl (fun s _ => s.callHandler t r) s with rejects := [] } : ViewSt) = { l.foldl (fun s _ => s.callHandler t r) u with rejects := [] } := by
    intro l
    induction l with
    | nil => intro s u t r h; exact h
    | cons x l ih => intro s u t r h; exact ih _ _ t r (hcall s u t r h)
  have hsee : ∀ (o : List LoggingOut) (s u : ViewSt) t, { s with rejects := [] } = { u with rejects := [] } →
      ({ ViewSt.see k t s o with rejects := [] } : ViewSt) = { ViewSt.see k t u o with rejects := [] } := by
    intro o
    induction o with
    | nil => intro s u t h; exact h
    | cons x o ih =>
      intro s u t h
      cases x with
      | record n i sinks =>
        simp only [ViewSt.see]
        apply ih
        have hser : s.serial = u.serial := by simpa using congrArg ViewSt.serial h
        rw [hser]
        have := hcalls (sinks.filter (· = .handler (.user k))) s u t ⟨u.serial, t, n, i⟩ h
        generalize List.foldl _ s _ = s2 at this
        generalize List.foldl _ u _ = u2 at this
        obtain ⟨a1, a2, a3, a4, a5, a6⟩ := s2
        obtain ⟨b1, b2, b3, b4, b5, b6⟩ := u2
        simp only [ViewSt.mk.injEq, true_and] at this
        obtain ⟨rfl, rfl, rfl, rfl, rfl⟩ := this
        rfl
      | raised e => exact ih s u t h
      | hook x => exact ih s u t h
  have hstep : ∀ (s u : ViewSt) (e : ViewEv), { s with rejects := [] } = { u with rejects := [] } → ({ s.step k e with rejects := [] } : ViewSt) = { u.step k e with rejects := [] } := by
    intro s u e h
    cases e with
    | inThread t x =>
      simp only [ViewSt.step]
      have hl : s.logging = u.logging := by simpa using congrArg ViewSt.logging h
      rw [hl]
      apply hsee
      obtain ⟨a1, a2, a3, a4, a5, a6⟩ := s
      obtain ⟨b1, b2, b3, b4, b5, b6⟩ := u
      simp only [ViewSt.mk.injEq, true_and] at h
      obtain ⟨rfl, rfl, rfl, rfl, rfl⟩ := h
      rfl
    | _ =>
      obtain ⟨a1, a2, a3, a4, a5, a6⟩ := s
      obtain ⟨b1, b2, b3, b4, b5, b6⟩ := u
      simp only [ViewSt.mk.injEq, true_and] at h
      obtain ⟨rfl, rfl, rfl, rfl, rfl⟩ := h
      simp only [ViewSt.step]
      try (split <;> rfl)
  have key : ∀ (es : List ViewEv) (s u : ViewSt), { s with rejects := [] } = { u with rejects := [] } →
      ({ ViewSt.run k s (es.filter fun | .addFilter _ => false | _ => true) with rejects := [] } : ViewSt) = { ViewSt.run k u es with rejects := [] } := by
    intro es
    induction es with
    | nil => intro s u h; exact h
    | cons e es ih =>
      intro s u h
      cases e with
      | addFilter f =>
        have h2 : ({ s with rejects := [] } : ViewSt) = { u.step k (.addFilter f) with rejects := [] } := h
        exact ih s _ h2
      | _ => exact ih _ _ (hstep s u _ h)
  have := congrArg ViewSt.shown (key es s s rfl)
  simpa using this

namespace Ex

/-- The main thread configures logging at INFO and makes a viewer for "a"; "a.b" logs in thread 1 and in the main thread, "c" elsewhere, "a" at DEBUG. -/
def viewEvs : List ViewEv := [.inThread 0 (.basicConfig (.int 20) true false), .create ["a"], .inThread 1 (.log ["a", "b"] 30), .inThread 0 (.log ["a"] 20), .inThread 0 (.log ["c"] 50),
  .addFilter (fun _ => true), .inThread 0 (.log ["a"] 10), .inThread 1 (.log ["a"] 40)]

/-- C108: hypotheses met, for a record of "a.b" after this history; what was shown and what waits. -/
example : ViewAt ["a"] 7 viewEvs ∧ (ViewSt.run 7 {} viewEvs).logging.eff ["a", "b"] = 20 ∧ PlainName ["a", "b"] ∧
    (ViewSt.run 7 {} viewEvs).shown = [⟨1, 0, ["a"], 20⟩] ∧ (ViewSt.run 7 {} viewEvs).queue = [⟨0, 1, ["a", "b"], 30⟩, ⟨4, 1, ["a"], 40⟩] := by
  refine ⟨⟨by simp [viewEvs], ?_⟩, by decide +kernel, ?_, by decide +kernel, by decide +kernel⟩
  · intro e he
    simp only [viewEvs, List.mem_cons, List.not_mem_nil, or_false] at he
    rcases he with rfl | rfl | rfl | rfl | rfl | rfl | rfl | rfl <;> simp
  · intro p hp
    have := mem_logPrefixes.1 hp
    have := this.length_le
    simp [stdioName] at this

end Ex

namespace Ex

theorem viewEvs_at : ViewAt ["a"] 7 viewEvs := by
  refine ⟨by simp [viewEvs], ?_⟩
  intro e he
  simp only [viewEvs, List.mem_cons, List.not_mem_nil, or_false] at he
  rcases he with rfl | rfl | rfl | rfl | rfl | rfl | rfl | rfl <;> simp

example := C108_order ["a"] 7 viewEvs viewEvs_at.2 1
example := C108_delivered 7 [⟨0, 1, ["a", "b"], 30⟩, ⟨4, 1, ["a"], 40⟩] (ViewSt.run 7 {} viewEvs) (by decide +kernel)

end Ex

end Verif
