import Verif.Proof.OptionalFree
/-! # What a process without numpy sends -/
namespace Verif

theorem npFree_core : ∀ v : Val, v.core.npFree = v.npFree
  | .sub _ v => by simp only [Val.core, Val.npFree]; exact npFree_core v
  | .none | .bool _ | .int _ | .float _ | .str _ | .bytes _ | .list _ | .tuple _ | .dict _ | .datetime _ | .date _
  | .ndarray _ | .npScalar _ | .dtype _ | .proxy _ | .obj _ _ => rfl

theorem types_free : ∀ v : Val, v.npFree = true → ∀ ty ∈ v.types, ty.needsNumpy = false
  | .sub _ v, h, ty, ht => by
    simp only [Val.types, List.mem_cons] at ht
    rcases ht with rfl | ht
    · rfl
    · exact types_free v h ty ht
  | .obj _ ts, h, ty, ht => by
    simp only [Val.types, List.mem_append, List.mem_singleton] at ht
    simp only [Val.npFree, List.all_eq_true] at h
    rcases ht with ht | rfl
    · simpa using h ty ht
    · rfl
  | .ndarray _, h, _, _ => by simp [Val.npFree] at h
  | .npScalar _, h, _, _ => by simp [Val.npFree] at h
  | .dtype _, h, _, _ => by simp [Val.npFree] at h
  | .none, _, ty, ht | .bool _, _, ty, ht | .int _, _, ty, ht | .float _, _, ty, ht | .str _, _, ty, ht
  | .bytes _, _, ty, ht | .list _, _, ty, ht | .tuple _, _, ty, ht | .dict _, _, ty, ht | .datetime _, _, ty, ht
  | .date _, _, ty, ht | .proxy _, _, ty, ht => by
    simp only [Val.types, List.mem_cons, List.not_mem_nil, or_false] at ht
    rcases ht with rfl | ht
    · rfl
    all_goals first | (subst ht; rfl) | (rcases ht with rfl | rfl <;> rfl)

theorem isinstance_bare {E E0 : SendEnv} (hb : BareSend E E0) {v : Val} (hv : v.npFree = true) :
    v.isinstance E0.tys = v.isinstance E.tys := by
  rw [Bool.eq_iff_iff]
  simp only [Val.isinstance, List.any_eq_true, decide_eq_true_eq]
  constructor
  · rintro ⟨ty, h1, h2⟩; exact ⟨ty, h1, hb.less ty h2⟩
  · rintro ⟨ty, h1, h2⟩; exact ⟨ty, h1, hb.more ty h2 (types_free v hv ty h1)⟩

theorem encodeValue_bare {L L0 : Lib} (hb : Bare L L0) {v : Val} (hv : v.npFree = true) :
    encodeValueIf false L0 v = encodeValue L v := by
  have hc := npFree_core v
  rw [hv] at hc
  unfold encodeValueIf encodeValue
  cases h : v.core <;> simp only [hb.years, hb.dumps v hv] <;> rw [h] at hc <;> simp [Val.npFree] at hc

theorem pnpFree_ints (l : List Nat) : npFreeL (l.map fun (n : Nat) => Val.int n) = true := by
  rw [npFreeL_iff]; intro v hv
  obtain ⟨n, -, rfl⟩ := List.mem_map.1 hv; rfl

theorem npFree_strs (l : List String) : npFreeL (l.map Val.str) = true := by
  rw [npFreeL_iff]; intro v hv
  obtain ⟨n, -, rfl⟩ := List.mem_map.1 hv; rfl

theorem encodeValue_free {L : Lib} {v : Val} (hv : v.npFree = true) {d} (h : encodeValue L v = .ok d) :
    npFreeD d = true := by
  have hc := npFree_core v
  rw [hv] at hc
  unfold encodeValue at h
  cases h' : v.core <;> rw [h'] at h hc <;> simp only [Val.npFree, Bool.false_eq_true] at hc <;> simp only at h
  case proxy p =>
    cases h
    simp [npFreeD, Proxy.getstate, Val.npFree, npFree_strs]
  case tuple l => cases h; simp [npFreeD, Val.npFree, hc]
  case none => cases h; rfl
  case datetime x => cases h; rfl
  case date x => cases h; rfl
  all_goals
    split at h
    · cases h; rfl
    · cases h

theorem encode_bare {E E0 : SendEnv} (hb : BareSend E E0) (t : Refs) {v : Val} (hv : v.npFree = true) :
    encodeIf false E0 t v = encode E t v := by
  unfold encodeIf encode
  rw [isinstance_bare hb hv, hb.server, hb.idOf, hb.ident, hb.typeStr, encodeValue_bare hb.lib hv]
  have : ∀ p, encodeValueIf false E0.lib (.proxy p) = encodeValue E.lib (.proxy p) := fun p => encodeValue_bare hb.lib rfl
  simp only [this]
  rfl

theorem encode_free {E : SendEnv} {t t' : Refs} {v : Val} (hv : v.npFree = true) {d} (h : encode E t v = (t', .ok d)) :
    npFreeD d = true := by
  unfold encode at h
  split at h
  · simp only [Prod.mk.injEq] at h; exact encodeValue_free hv h.2
  · split at h
    · cases h
    · split at h
      · simp only [Prod.mk.injEq] at h; exact encodeValue_free (v := .proxy _) rfl h.2
      · cases h

theorem mapS_free_congr {β : Type} {f g : Refs → Val → Refs × Except Exc β} (h : ∀ t v, v.npFree = true → f t v = g t v) :
    ∀ t l, npFreeL l = true → mapS f t l = mapS g t l := by
  intro t l
  induction l generalizing t with
  | nil => intro _; rfl
  | cons v r ih =>
    intro hl
    simp only [npFreeL, Bool.and_eq_true] at hl
    simp only [mapS, h t v hl.1, ih _ hl.2]

theorem mapS_free_congrD {β : Type} {f g : Refs → Val × Val → Refs × Except Exc β}
    (h : ∀ t (e : Val × Val), e.1.npFree = true → e.2.npFree = true → f t e = g t e) :
    ∀ t l, npFreeD l = true → mapS f t l = mapS g t l := by
  intro t l
  induction l generalizing t with
  | nil => intro _; rfl
  | cons e r ih =>
    intro hl
    obtain ⟨k, v⟩ := e
    simp only [npFreeD, Bool.and_eq_true] at hl
    simp only [mapS, h t (k, v) hl.1.1 hl.1.2, ih _ hl.2]

theorem pack_bare {E E0 : SendEnv} (hb : BareSend E E0) : ∀ n t v, v.npFree = true →
    packIf false E0 n t v = pack E n t v := by
  intro n
  induction n with
  | zero => intro t v _; rfl
  | succ n ih =>
    intro t v hv
    have hL := mapS_free_congr ih
    have hD : ∀ t d, npFreeD d = true → mapS (pairS (packIf false E0 n)) t d = mapS (pairS (pack E n)) t d :=
      mapS_free_congrD (fun t e h1 h2 => by
        obtain ⟨k, x⟩ := e
        simp only [pairS, ih _ _ h1, ih _ _ h2])
    have hdef : ∀ v : Val, v.npFree = true → (match encodeIf false E0 t v with
        | (t1, .ok d) => (match mapS (pairS (packIf false E0 n)) t1 d with
            | (t', .ok m) => (t', Except.ok (Wire.map m))
            | (t', .error e) => (t', .error e))
        | (t1, .error e) => (t1, .error e)) =
        (match encode E t v with
        | (t1, .ok d) => (match mapS (pairS (pack E n)) t1 d with
            | (t', .ok m) => (t', Except.ok (Wire.map m))
            | (t', .error e) => (t', .error e))
        | (t1, .error e) => (t1, .error e)) := by
      intro v hv
      rw [encode_bare hb t hv]
      cases h : encode E t v with
      | mk t1 x =>
        cases x with
        | error e => rfl
        | ok d => simp only; rw [hD t1 d (encode_free hv h)]
    cases v <;> simp only [packIf, pack]
    case int i => split; · rfl
                  · exact hdef _ hv
    case list l => rw [hL t l hv]; rfl
    case dict d => rw [hD t d hv]; rfl
    all_goals exact hdef _ hv

theorem jencode_bare {E E0 : SendEnv} (hb : BareSend E E0) (t : Refs) {v : Val} (hv : v.npFree = true) :
    jencodeIf false E0 t v = jencode E t v := by
  have hc := npFree_core v
  rw [hv] at hc
  unfold jencodeIf jencode
  cases h : v.core <;> simp only [encode_bare hb t hv] <;> rw [h] at hc <;> simp [Val.npFree] at hc

theorem jencode_free {E : SendEnv} {t t' : Refs} {v : Val} (hv : v.npFree = true) {d} (h : jencode E t v = (t', .ok d)) :
    npFreeD d = true := by
  have hc := npFree_core v
  rw [hv] at hc
  unfold jencode at h
  cases h' : v.core <;> rw [h'] at h hc <;> simp only [Val.npFree, Bool.false_eq_true] at hc <;> simp only at h
  case bytes b => cases h; rfl
  all_goals exact encode_free hv h

theorem jpack_bare {E E0 : SendEnv} (hb : BareSend E E0) : ∀ n t v, v.npFree = true →
    jpackIf false E0 n t v = jpack E n t v := by
  intro n
  induction n with
  | zero => intro t v _; rfl
  | succ n ih =>
    intro t v hv
    have hL := mapS_free_congr ih
    have hD : ∀ t d, npFreeD d = true → mapS (jpair E0.lib (jpackIf false E0 n)) t d = mapS (jpair E.lib (jpack E n)) t d :=
      mapS_free_congrD (fun t e h1 h2 => by
        obtain ⟨k, x⟩ := e
        have hk : jkey E0.lib k = jkey E.lib k := by unfold jkey; rw [hb.lib.floats]
        simp only [jpair, hk, ih _ _ h2])
    have hdef : (match jencodeIf false E0 t v with
        | (t1, .ok d) => (match mapS (jpair E0.lib (jpackIf false E0 n)) t1 d with
            | (t', .ok m) => (t', Except.ok (Wire.map m))
            | (t', .error e) => (t', .error e))
        | (t1, .error e) => (t1, .error e)) =
        (match jencode E t v with
        | (t1, .ok d) => (match mapS (jpair E.lib (jpack E n)) t1 d with
            | (t', .ok m) => (t', Except.ok (Wire.map m))
            | (t', .error e) => (t', .error e))
        | (t1, .error e) => (t1, .error e)) := by
      rw [jencode_bare hb t hv]
      cases h : jencode E t v with
      | mk t1 x =>
        cases x with
        | error e => rfl
        | ok d => simp only; rw [hD t1 d (jencode_free hv h)]
    have hc := npFree_core v
    rw [hv] at hc
    cases h : v.core <;> simp only [jpackIf, jpack, h] <;> rw [h] at hc
    case list l => rw [hL t l hc]; rfl
    case tuple l => rw [hL t l hc]; rfl
    case dict d => rw [hD t d hc]; rfl
    case npScalar => simp [Val.npFree] at hc
    all_goals exact hdef

end Verif
