import Verif.Proof.Serializer
/-! # When msgpack serialization succeeds -/
namespace Verif

/-- the result of packing when foreign objects are present or not -/
def PackT (E : SendEnv) (n : Nat) : Prop :=
  ∀ t v, Packable E.lib E.tys v → v.depth ≤ n →
    ((E.server ≠ none ∨ ¬ Foreign E.tys v) → ∃ t' w, pack E n t v = (t', .ok w)) ∧
    ((E.server = none ∧ Foreign E.tys v) → pack E n t v = (t, .error .typeError))

mutual
theorem depth_pos : ∀ v : Val, 1 ≤ v.depth
  | .sub _ v => by simp only [Val.depth]; split <;> omega
  | .int i => by simp only [Val.depth]; split <;> omega
  | .none | .bool _ | .float _ | .str _ | .bytes _ | .list _ | .tuple _ | .dict _ | .datetime _ | .date _
  | .ndarray _ | .npScalar _ | .dtype _ | .proxy _ | .obj _ _ => by simp only [Val.depth]; omega
end

/-- without a server the table never changes -/
theorem pack_noServer {E : SendEnv} (hs : E.server = none) : ∀ n t v, (pack E n t v).1 = t := by
  intro n
  induction n with
  | zero => intro t v; simp [pack]
  | succ n ih =>
    have hL : ∀ (l : List Val) t, (mapS (pack E n) t l).1 = t := by
      intro l
      induction l with
      | nil => intro t; rfl
      | cons v l ihl =>
        intro t
        have h1 := ih t v
        simp only [mapS]
        split
        · rename_i h; rw [h] at h1; exact h1
        · rename_i t1 b h; rw [h] at h1; simp only at h1; subst h1
          have h2 := ihl t1
          split
          · rename_i h'; rw [h'] at h2; exact h2
          · rename_i h'; rw [h'] at h2; exact h2
    have hD : ∀ (l : List (Val × Val)) t, (mapS (pairS (pack E n)) t l).1 = t := by
      intro l
      induction l with
      | nil => intro t; rfl
      | cons v l ihl =>
        intro t
        have h1 : (pairS (pack E n) t v).1 = t := by
          have h1 := ih t v.1
          simp only [pairS]
          split
          · rename_i h; rw [h] at h1; exact h1
          · rename_i t1 b h; rw [h] at h1; simp only at h1; subst h1
            have h2 := ih t1 v.2
            split
            · rename_i h'; rw [h'] at h2; exact h2
            · rename_i h'; rw [h'] at h2; exact h2
        simp only [mapS]
        split
        · rename_i h; rw [h] at h1; exact h1
        · rename_i t1 b h; rw [h] at h1; simp only at h1; subst h1
          have h2 := ihl t1
          split
          · rename_i h'; rw [h'] at h2; exact h2
          · rename_i h'; rw [h'] at h2; exact h2
    have hE : ∀ t v, (encode E t v).1 = t := by
      intro t v; simp only [encode, hs]; split <;> rfl
    have hdef : ∀ t v, (match encode E t v with
        | (t1, .ok d) => (match mapS (pairS (pack E n)) t1 d with
            | (t', .ok m) => (t', Except.ok (Wire.map m))
            | (t', .error e) => (t', .error e))
        | (t1, .error e) => (t1, .error e)).1 = t := by
      intro t v
      have h1 := hE t v
      split
      · rename_i t1 d h; rw [h] at h1; simp only at h1; subst h1
        have h2 := hD d t1
        split
        · rename_i h'; rw [h'] at h2; exact h2
        · rename_i h'; rw [h'] at h2; exact h2
      · rename_i t1 d h; rw [h] at h1; exact h1
    intro t v
    cases v <;> simp only [pack]
    case int i => split
                  · rfl
                  · exact hdef t _
    case list l =>
      have := hL l t
      split
      · rename_i h; rw [h] at this; exact this
      · rename_i h; rw [h] at this; exact this
    case dict d =>
      have := hD d t
      split
      · rename_i h; rw [h] at this; exact this
      · rename_i h; rw [h] at this; exact this
    all_goals exact hdef t _

theorem packL_total {E n} (hn : PackT E n) : ∀ (l : List Val) t, PackableL E.lib E.tys l → depthL l ≤ n →
    ((E.server ≠ none ∨ ¬ ForeignL E.tys l) → ∃ t' ws, mapS (pack E n) t l = (t', .ok ws)) ∧
    ((E.server = none ∧ ForeignL E.tys l) → mapS (pack E n) t l = (t, .error .typeError))
  | [], t, _, _ => ⟨fun _ => ⟨t, [], rfl⟩, fun h => by simp [ForeignL] at h⟩
  | v :: vs, t, hp, hd => by
    simp only [PackableL] at hp
    simp only [depthL] at hd
    have h1 := hn t v hp.1 (by omega)
    constructor
    · intro h
      obtain ⟨t1, w, hw⟩ := h1.1 (by
        rcases h with h | h
        · exact Or.inl h
        · simp only [ForeignL, not_or] at h; exact Or.inr h.1)
      obtain ⟨t2, ws, hws⟩ := (packL_total hn vs t1 hp.2 (by omega)).1 (by
        rcases h with h | h
        · exact Or.inl h
        · simp only [ForeignL, not_or] at h; exact Or.inr h.2)
      exact ⟨t2, w :: ws, by simp [mapS, hw, hws]⟩
    · rintro ⟨hs, hf⟩
      by_cases hv : Foreign E.tys v
      · simp [mapS, h1.2 ⟨hs, hv⟩]
      · obtain ⟨t1, w, hw⟩ := h1.1 (Or.inr hv)
        have ht1 : t1 = t := by have := pack_noServer hs n t v; rw [hw] at this; exact this
        subst ht1
        have := (packL_total hn vs t1 hp.2 (by omega)).2 ⟨hs, by simpa [ForeignL, hv] using hf⟩
        simp [mapS, hw, this]

theorem pack_key_total {E : SendEnv} {n : Nat} (hn : 1 ≤ n) {k : Val} (hk : keyOk k = true) (t : Refs) :
    ∃ w, pack E n t k = (t, .ok w) := by
  obtain ⟨n, rfl⟩ : ∃ m, n = m + 1 := ⟨n - 1, by omega⟩
  cases k <;> simp only [keyOk, Bool.false_eq_true] at hk
  all_goals exact ⟨_, rfl⟩

theorem packD_total {E n} (hn : PackT E n) : ∀ (l : List (Val × Val)) t, (∀ e ∈ l, keyOk e.1 = true) →
    PackableD E.lib E.tys l → depthD l ≤ n →
    ((E.server ≠ none ∨ ¬ ForeignD E.tys l) → ∃ t' ws, mapS (pairS (pack E n)) t l = (t', .ok ws)) ∧
    ((E.server = none ∧ ForeignD E.tys l) → mapS (pairS (pack E n)) t l = (t, .error .typeError))
  | [], t, _, _, _ => ⟨fun _ => ⟨t, [], rfl⟩, fun h => by simp [ForeignD] at h⟩
  | (k, v) :: vs, t, hk, hp, hd => by
    simp only [PackableD] at hp
    simp only [depthD] at hd
    have h1 := hn t v hp.1 (by omega)
    have hpos := depth_pos v
    obtain ⟨kw, hkw⟩ := pack_key_total (E := E) (n := n) (by omega) (hk (k, v) (by simp)) t
    simp only at hkw
    have hk' : ∀ e ∈ vs, keyOk e.1 = true := fun e he => hk e (by simp [he])
    constructor
    · intro h
      obtain ⟨t1, w, hw⟩ := h1.1 (by
        rcases h with h | h
        · exact Or.inl h
        · simp only [ForeignD, not_or] at h; exact Or.inr h.1)
      obtain ⟨t2, ws, hws⟩ := (packD_total hn vs t1 hk' hp.2 (by omega)).1 (by
        rcases h with h | h
        · exact Or.inl h
        · simp only [ForeignD, not_or] at h; exact Or.inr h.2)
      exact ⟨t2, (kw, w) :: ws, by simp [mapS, pairS, hkw, hw, hws]⟩
    · rintro ⟨hs, hf⟩
      by_cases hv : Foreign E.tys v
      · simp [mapS, pairS, hkw, h1.2 ⟨hs, hv⟩]
      · obtain ⟨t1, w, hw⟩ := h1.1 (Or.inr hv)
        have ht1 : t1 = t := by have := pack_noServer hs n t v; rw [hw] at this; exact this
        subst ht1
        have := (packD_total hn vs t1 hk' hp.2 (by omega)).2 ⟨hs, by simpa [ForeignD, hv] using hf⟩
        simp [mapS, pairS, hkw, hw, this]

theorem packableL_int {L tys} : ∀ l : List Nat, PackableL L tys (l.map fun (n : Nat) => Val.int n)
  | [] => by simp [PackableL]
  | n :: l => by simp only [List.map_cons, PackableL, Packable, true_and]; exact packableL_int l

theorem packableL_str {L tys} : ∀ l : List String, PackableL L tys (l.map Val.str)
  | [] => by simp [PackableL]
  | n :: l => by simp only [List.map_cons, PackableL, Packable, true_and]; exact packableL_str l

theorem foreignL_int {tys} : ∀ l : List Nat, ¬ ForeignL tys (l.map fun (n : Nat) => Val.int n)
  | [] => by simp [ForeignL]
  | n :: l => by simp only [List.map_cons, ForeignL, Foreign, false_or]; exact foreignL_int l

theorem foreignL_str {tys} : ∀ l : List String, ¬ ForeignL tys (l.map Val.str)
  | [] => by simp [ForeignL]
  | n :: l => by simp only [List.map_cons, ForeignL, Foreign, false_or]; exact foreignL_str l

theorem depthL_int : ∀ l : List Nat, depthL (l.map fun (n : Nat) => Val.int n) ≤ 2
  | [] => by simp [depthL]
  | n :: l => by
    have := depthL_int l
    simp only [List.map_cons, depthL, Val.depth]
    split <;> omega

theorem depthL_str : ∀ l : List String, depthL (l.map Val.str) ≤ 1
  | [] => by simp [depthL]
  | n :: l => by
    have := depthL_str l
    simp only [List.map_cons, depthL, Val.depth]
    omega

/-- encoding a base value succeeds and yields a dict that can be packed one level below -/
theorem encodeValue_total {L : Lib} (hL : L.Laws) {tys : List Ty} {u : Val} (hf : u.flattened = true)
    (hc : u.core = u) (hp : Packable L tys u) :
    ∃ d, encodeValue L u = .ok d ∧ (∀ e ∈ d, keyOk e.1 = true) ∧ PackableD L tys d ∧ depthD d + 1 ≤ max 2 u.depth ∧
      (ForeignD tys d ↔ Foreign tys u) := by
  cases u <;> simp only [Val.flattened, Val.core, Bool.false_eq_true] at hf
  case sub c b => exact absurd hc (core_ne_sub c b _)
  case none =>
    exact ⟨_, rfl, by simp [keyOk], by simp [PackableD, Packable], by simp [depthD, Val.depth], by simp [ForeignD, Foreign]⟩
  case tuple l =>
    simp only [Packable] at hp
    refine ⟨_, rfl, by simp [keyOk], by simp [PackableD, Packable, hp], ?_, by simp [ForeignD, Foreign]⟩
    simp only [depthD, Val.depth]; omega
  case datetime x =>
    exact ⟨_, rfl, by simp [keyOk], by simp [PackableD, Packable], by simp [depthD, Val.depth], by simp [ForeignD, Foreign]⟩
  case date x =>
    exact ⟨_, rfl, by simp [keyOk], by simp [PackableD, Packable], by simp [depthD, Val.depth], by simp [ForeignD, Foreign]⟩
  case ndarray a =>
    have e : (if a.cContiguous then a else a.ascontiguous) = a.toSend := rfl
    refine ⟨_, by simp only [encodeValue, Val.core, e]; rfl, by simp [keyOk], ?_, ?_, ?_⟩
    · simp [PackableD, Packable, packableL_int]
    · have := depthL_int a.toSend.shape
      simp only [depthD, Val.depth]; omega
    · simp [ForeignD, Foreign, foreignL_int]
  case proxy p =>
    refine ⟨_, rfl, by simp [keyOk, Proxy.getstate], ?_, ?_, ?_⟩
    · simp [PackableD, Packable, packableL_str, Proxy.getstate]
    · have := depthL_str p.attrs
      simp only [depthD, Val.depth, Proxy.getstate]
      split <;> split <;> omega
    · simp [ForeignD, Foreign, foreignL_str, Proxy.getstate]
  case npScalar s =>
    simp only [Packable] at hp
    obtain ⟨hx, hkn⟩ := hp
    obtain ⟨dt, val⟩ := s
    unfold NpScalar.exact at hx
    have key : ∃ x, encodeValue L (.npScalar ⟨dt, val⟩) =
        .ok [(.str encodeKey, .str "np_number"), (.str "dtype", .dtype dt), (.str "value", x)] ∧
        Packable L tys x ∧ x.depth ≤ 2 ∧ ¬ Foreign tys x := by
      cases hk : dt.kind <;> cases val <;> simp only [hk] at hx
      · rename_i b
        exact ⟨.bool b, by simp only [encodeValue, Val.core, NpScalar.toPy, hk], by simp [Packable], by simp [Val.depth], by simp [Foreign]⟩
      · rename_i b
        exact ⟨.int b, by simp only [encodeValue, Val.core, NpScalar.toPy, hk], by simp [Packable], by simp only [Val.depth]; split <;> omega, by simp [Foreign]⟩
      · rename_i b
        exact ⟨.float b, by simp only [encodeValue, Val.core, NpScalar.toPy, hk], by simp [Packable], by simp [Val.depth], by simp [Foreign]⟩
    obtain ⟨x, h1, h2, h3, h4⟩ := key
    refine ⟨_, h1, by simp [keyOk], by simp [PackableD, Packable, h2, hkn], ?_, by simp [ForeignD, Foreign, h4]⟩
    simp only [depthD, Val.depth]; omega

theorem flat_core' {L : Lib} {tys : List Ty} : ∀ v : Val, v.flattened = true → Packable L tys v →
    Packable L tys v.core ∧ v.core.flattened = true ∧ v.core.depth ≤ v.depth ∧ (Foreign tys v ↔ Foreign tys v.core) ∧
    encodeValue L v = encodeValue L v.core
  | .sub c v, hf, hs => by
    have hf' : v.flattened = true := by simpa [Val.flattened, Val.core] using hf
    simp only [Packable, hf', if_true] at hs
    obtain ⟨h1, h2, h3, h4, h5⟩ := flat_core' (L := L) (tys := tys) v hf' hs
    refine ⟨h1, h2, ?_, ?_, ?_⟩
    · simp only [Val.core, Val.depth, hf', if_true]; omega
    · simp only [Foreign, hf', if_true, Val.core]; exact h4
    · simp only [Val.core]
      have hc := core_core v
      simp only [Val.flattened] at hf'
      rw [show encodeValue L v.core = encodeValue L (.sub c v) from ?_]
      simp only [encodeValue, Val.core, hc]
      generalize v.core = u at h1 hf' hc
      cases u <;> simp only [Bool.false_eq_true] at hf' <;> try rfl
      rename_i s
      simp only [Packable, NpScalar.exact] at h1
      obtain ⟨h1, -⟩ := h1
      split at h1
      · rename_i hk _; simp only [hk]
      · rename_i hk _; simp only [hk]
      · rename_i hk _; simp only [hk]
      · exact h1.elim
  | .none, hf, hs | .bool _, hf, hs | .int _, hf, hs | .float _, hf, hs | .str _, hf, hs | .bytes _, hf, hs
  | .list _, hf, hs | .tuple _, hf, hs | .dict _, hf, hs | .datetime _, hf, hs | .date _, hf, hs | .ndarray _, hf, hs
  | .npScalar _, hf, hs | .dtype _, hf, hs | .proxy _, hf, hs | .obj _ _, hf, hs =>
    ⟨hs, hf, Nat.le_refl _, Iff.rfl, rfl⟩

theorem getProxy_succeeds (idOf) (t : Refs) (o : Obj) : ∃ t' oid rid, t.getProxy idOf o [] = (t', .ok (oid, rid)) := by
  unfold Refs.getProxy
  simp

/-- outcome of encoding a value through the hook -/
def Via (E : SendEnv) (n : Nat) (t : Refs) (v : Val) : Refs × Except Exc Wire :=
  match encode E t v with
  | (t1, .ok d) =>
    match mapS (pairS (pack E n)) t1 d with
    | (t', .ok m) => (t', Except.ok (Wire.map m))
    | (t', .error e) => (t', .error e)
  | (t1, .error e) => (t1, .error e)

theorem via_flat {E : SendEnv} (hL : E.lib.Laws) {n} (hn : PackT E n) {v : Val} (t : Refs)
    (hi : v.isinstance E.tys = true) (hf : v.flattened = true) (hp : Packable E.lib E.tys v) (hd : max 2 v.depth ≤ n + 1) :
    ((E.server ≠ none ∨ ¬ Foreign E.tys v) → ∃ t' w, Via E n t v = (t', .ok w)) ∧
    ((E.server = none ∧ Foreign E.tys v) → Via E n t v = (t, .error .typeError)) := by
  obtain ⟨h1, h2, h3, h4, h5⟩ := flat_core' v hf hp
  obtain ⟨d, e1, e2, e3, e4, e5⟩ := encodeValue_total hL h2 (core_core v) h1
  have hM := packD_total hn d t e2 e3 (by omega)
  have : encode E t v = (t, .ok d) := by simp only [encode, hi, if_true, h5, e1]
  simp only [Via, this]
  rw [h4, ← e5]
  constructor
  · intro h
    obtain ⟨t', ws, hws⟩ := hM.1 h
    exact ⟨t', .map ws, by simp only [hws]⟩
  · intro h
    simp only [hM.2 h]

theorem via_pickle {E : SendEnv} {n} (hn : PackT E n) {v : Val} (t : Refs) (hi : v.isinstance E.tys = true)
    (hf : v.flattened = false) {b : Bytes} (hb : E.lib.pickleDumps v = .ok b) (hd : 2 ≤ n + 1) :
    ∃ t' w, Via E n t v = (t', .ok w) := by
  have he : encodeValue E.lib v = .ok [(.str encodeKey, .str "pickle"), (.str "pickle_str", .bytes b)] := by
    have hns := fun c b => core_ne_sub c b v
    unfold encodeValue
    simp only [Val.flattened] at hf
    generalize v.core = u at hf hns
    cases u <;> simp only [Bool.true_eq_false] at hf
    all_goals first
      | exact absurd rfl (hns _ _)
      | simp only [hb]
  have : encode E t v = (t, .ok [(.str encodeKey, .str "pickle"), (.str "pickle_str", .bytes b)]) := by
    simp only [encode, hi, if_true, he]
  have hM := packD_total hn [(.str encodeKey, .str "pickle"), (.str "pickle_str", .bytes b)] t (by simp [keyOk])
    (by simp [PackableD, Packable]) (by simp [depthD, Val.depth]; omega)
  obtain ⟨t', ws, hws⟩ := hM.1 (Or.inr (by simp [ForeignD, Foreign]))
  exact ⟨t', .map ws, by simp only [Via, this, hws]⟩

theorem via_proxy {E : SendEnv} (hL : E.lib.Laws) {n} (hn : PackT E n) {v : Val} (t : Refs)
    (hi : v.isinstance E.tys = false) (hd : 4 ≤ n + 1) :
    (E.server ≠ none → ∃ t' w, Via E n t v = (t', .ok w)) ∧
    (E.server = none → Via E n t v = (t, .error .typeError)) := by
  constructor
  · intro h
    obtain ⟨addr, ha⟩ := Option.ne_none_iff_exists'.1 h
    obtain ⟨t1, oid, rid, hg⟩ := getProxy_succeeds E.idOf t (E.ident v)
    obtain ⟨d, e1, e2, e3, e4, e5⟩ := encodeValue_total hL (tys := E.tys)
      (u := .proxy ⟨addr, oid, rid, E.typeStr v, []⟩) rfl rfl (by simp [Packable])
    simp only [Val.depth] at e4
    obtain ⟨t', ws, hws⟩ := (packD_total hn d t1 e2 e3 (by omega)).1 (Or.inl h)
    exact ⟨t', .map ws, by simp only [Via, encode, hi, ha, hg, e1, Bool.false_eq_true, if_false, hws]⟩
  · intro h
    simp only [Via, encode, hi, h]; rfl

theorem packT {E : SendEnv} (hL : E.lib.Laws) (hty : ∀ ty ∈ defaultTypes, ty ∈ E.tys) : ∀ n, PackT E n := by
  intro n
  induction n with
  | zero => intro t v _ hd; have := depth_pos v; omega
  | succ n ih =>
    intro t v hp hd
    have inst : ∀ {v : Val}, (match v.core with | .obj _ _ => False | .npScalar s => s.exact | _ => True) →
        v.isinstance E.tys = true := isinstance_default hty
    have hvia : ∀ v, Packable E.lib E.tys v → max 2 v.depth ≤ n + 1 →
        (v.flattened = true → v.isinstance E.tys = true) →
        (v.flattened = false → v.isinstance E.tys = true → (∃ b, E.lib.pickleDumps v = .ok b) ∧ ¬ Foreign E.tys v) →
        (v.isinstance E.tys = false → Foreign E.tys v ∧ 4 ≤ v.depth) →
        ((E.server ≠ none ∨ ¬ Foreign E.tys v) → ∃ t' w, Via E n t v = (t', .ok w)) ∧
        ((E.server = none ∧ Foreign E.tys v) → Via E n t v = (t, .error .typeError)) := by
      intro v hp hd hfi hpk hfo
      by_cases hi : v.isinstance E.tys = true
      · by_cases hf : v.flattened = true
        · exact via_flat hL ih t hi hf hp hd
        · obtain ⟨⟨b, hb⟩, hnf⟩ := hpk (by simpa using hf) hi
          exact ⟨fun _ => via_pickle ih t hi (by simpa using hf) hb (by omega), fun h => absurd h.2 hnf⟩
      · have hi' : v.isinstance E.tys = false := by simpa using hi
        obtain ⟨hF, h4⟩ := hfo hi'
        have := via_proxy hL ih t hi' (by omega)
        refine ⟨fun h => this.1 ?_, fun h => this.2 h.1⟩
        rcases h with h | h
        · exact h
        · exact absurd hF h
    cases v
    case none => exact ⟨fun _ => ⟨t, .nil, rfl⟩, fun h => by simp [Foreign] at h⟩
    case bool b => exact ⟨fun _ => ⟨t, .bool b, rfl⟩, fun h => by simp [Foreign] at h⟩
    case float b => exact ⟨fun _ => ⟨t, .float b, rfl⟩, fun h => by simp [Foreign] at h⟩
    case str b => exact ⟨fun _ => ⟨t, .str b, rfl⟩, fun h => by simp [Foreign] at h⟩
    case bytes b => exact ⟨fun _ => ⟨t, .bin b, rfl⟩, fun h => by simp [Foreign] at h⟩
    case int i =>
      simp only [pack]
      split
      · exact ⟨fun _ => ⟨t, .int i, rfl⟩, fun h => by simp [Foreign] at h⟩
      · rename_i hlarge
        simp only [Val.depth, hlarge, if_false] at hd
        refine hvia (.int i) hp (by simp only [Val.depth, hlarge, if_false]; omega) (fun _ => inst (by simp [Val.core])) ?_ ?_
        · intro _ _; exact ⟨hL.pickleInt i, by simp [Foreign]⟩
        · intro h; rw [inst (by simp [Val.core])] at h; simp at h
    case list l =>
      simp only [Packable] at hp
      simp only [Val.depth] at hd
      have := packL_total ih l t hp (by omega)
      simp only [Foreign, pack]
      constructor
      · intro h; obtain ⟨t', ws, hw⟩ := this.1 h; exact ⟨t', .arr ws, by simp [hw]⟩
      · intro h; simp [this.2 h]
    case dict d =>
      simp only [Packable] at hp
      simp only [Val.depth] at hd
      have := packD_total ih d t hp.1 hp.2 (by omega)
      simp only [Foreign, pack]
      constructor
      · intro h; obtain ⟨t', ws, hw⟩ := this.1 h; exact ⟨t', .map ws, by simp [hw]⟩
      · intro h; simp [this.2 h]
    case npScalar s =>
      have hi : (Val.npScalar s).isinstance E.tys = true := inst (by simp only [Packable] at hp; exact hp.1)
      refine hvia _ hp (by simp only [Val.depth] at hd ⊢; omega) (fun _ => hi) (by simp [Val.flattened, Val.core]) ?_
      intro h; rw [hi] at h; simp at h
    case dtype x =>
      have hi : (Val.dtype x).isinstance E.tys = true := inst (by simp [Val.core])
      refine hvia _ hp (by simp only [Val.depth] at hd ⊢; omega) (fun _ => hi) ?_ ?_
      · intro _ _; simp only [Packable] at hp; exact ⟨hL.dtypePickles x hp, by simp [Foreign]⟩
      · intro h; rw [hi] at h; simp at h
    case obj o ts =>
      refine hvia _ hp (by simp only [Val.depth] at hd ⊢; omega) (by simp [Val.flattened, Val.core]) ?_ ?_
      · intro _ hi; simp only [Packable] at hp; exact ⟨hp hi, by simp [Foreign, hi]⟩
      · intro h; exact ⟨by simpa only [Foreign] using h, by simp [Val.depth]⟩
    case sub k u =>
      have hfe : (Val.sub k u).flattened = u.flattened := by simp [Val.flattened, Val.core]
      have hi : (Val.sub k u).flattened = true → (Val.sub k u).isinstance E.tys = true := by
        intro hf'
        refine inst ?_
        obtain ⟨h1, h2, -, -, -⟩ := flat_core' (L := E.lib) (tys := E.tys) _ hf' hp
        revert h1 h2
        simp only [Val.flattened, core_core]
        cases (Val.sub k u).core <;> simp +contextual [Packable]
      refine hvia _ hp ?_ hi ?_ ?_
      · have : 2 ≤ (Val.sub k u).depth := by simp only [Val.depth]; split <;> omega
        omega
      · intro hf hin
        rw [hfe] at hf
        simp only [Packable, hf] at hp
        exact ⟨hp hin, by simp [Foreign, hf, hin]⟩
      · intro hin
        have hf : u.flattened = false := by
          cases hc : u.flattened with
          | false => rfl
          | true =>
            have := hi (by rw [hfe]; exact hc)
            rw [this] at hin; simp at hin
        simp [Foreign, hf, hin, Val.depth]
    all_goals
      rename_i x
      refine hvia _ hp (by simp only [Val.depth] at hd ⊢; omega) (fun _ => inst (by simp [Val.core])) (by simp [Val.flattened, Val.core]) ?_
      intro h; rw [inst (by simp [Val.core])] at h; simp at h

end Verif
