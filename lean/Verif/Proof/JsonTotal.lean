import Verif.Proof.Json
/-! # When JSON serialization succeeds -/
namespace Verif

/-- the result of packing when foreign objects are present or not -/
def JPackT (E : SendEnv) (n : Nat) : Prop :=
  ∀ t v, JPackable E.lib E.tys v → v.jdepth ≤ n →
    ((E.server ≠ none ∨ ¬ JForeign E.tys v) → ∃ t' w, jpack E n t v = (t', .ok w)) ∧
    ((E.server = none ∧ JForeign E.tys v) → jpack E n t v = (t, .error .typeError))

theorem jdepth_pos : ∀ v : Val, 1 ≤ v.jdepth
  | .sub _ v => by
    have := jdepth_pos v
    simp only [Val.jdepth]; split <;> omega
  | .none | .bool _ | .int _ | .float _ | .str _ | .bytes _ | .list _ | .tuple _ | .dict _ | .datetime _ | .date _
  | .ndarray _ | .npScalar _ | .dtype _ | .proxy _ | .obj _ _ => by simp only [Val.jdepth]; omega

/-- the hook followed by packing its dict -/
def JVia (E : SendEnv) (n : Nat) (t : Refs) (v : Val) : Refs × Except Exc Wire :=
  match jencode E t v with
  | (t1, .ok d) =>
    match mapS (jpair E.lib (jpack E n)) t1 d with
    | (t', .ok m) => (t', Except.ok (Wire.map m))
    | (t', .error e) => (t', .error e)
  | (t1, .error e) => (t1, .error e)

/-- without a server the table never changes -/
theorem jpack_noServer {E : SendEnv} (hs : E.server = none) : ∀ n t v, (jpack E n t v).1 = t := by
  intro n
  induction n with
  | zero => intro t v; simp [jpack]
  | succ n ih =>
    have hL : ∀ (l : List Val) t, (mapS (jpack E n) t l).1 = t := by
      intro l
      induction l with
      | nil => intro t; rfl
      | cons v l ihl =>
        intro t
        have h1 := ih t v
        simp only [mapS]
        split
        · rename_i h; rw [h] at h1; exact h1
        · rename_i t1 b h; rw [h] at h1; simp only at h1; subst h1
          have h2 := ihl t1
          split
          · rename_i h'; rw [h'] at h2; exact h2
          · rename_i h'; rw [h'] at h2; exact h2
    have hD : ∀ (l : List (Val × Val)) t, (mapS (jpair E.lib (jpack E n)) t l).1 = t := by
      intro l
      induction l with
      | nil => intro t; rfl
      | cons v l ihl =>
        intro t
        have h1 : (jpair E.lib (jpack E n) t v).1 = t := by
          have h1 := ih t v.2
          simp only [jpair]
          split
          · rfl
          · split
            · rename_i h; rw [h] at h1; exact h1
            · rename_i h; rw [h] at h1; exact h1
        simp only [mapS]
        split
        · rename_i h; rw [h] at h1; exact h1
        · rename_i t1 b h; rw [h] at h1; simp only at h1; subst h1
          have h2 := ihl t1
          split
          · rename_i h'; rw [h'] at h2; exact h2
          · rename_i h'; rw [h'] at h2; exact h2
    have hE : ∀ t v, (jencode E t v).1 = t := by
      intro t v; simp only [jencode, encode, hs]
      split <;> try rfl
      split <;> rfl
    have hdef : ∀ t v, (JVia E n t v).1 = t := by
      intro t v
      have h1 := hE t v
      unfold JVia
      split
      · rename_i t1 d h; rw [h] at h1; simp only at h1; subst h1
        have h2 := hD d t1
        split
        · rename_i h'; rw [h'] at h2; exact h2
        · rename_i h'; rw [h'] at h2; exact h2
      · rename_i t1 d h; rw [h] at h1; exact h1
    intro t v
    simp only [jpack]
    split <;> try rfl
    · rename_i l _
      have := hL l t
      split
      · rename_i h; rw [h] at this; exact this
      · rename_i h; rw [h] at this; exact this
    · rename_i l _
      have := hL l t
      split
      · rename_i h; rw [h] at this; exact this
      · rename_i h; rw [h] at this; exact this
    · rename_i d _
      have := hD d t
      split
      · rename_i h; rw [h] at this; exact this
      · rename_i h; rw [h] at this; exact this
    · split
      · rfl
      · exact hdef t _
    · exact hdef t _

theorem jpackL_total {E n} (hn : JPackT E n) : ∀ (l : List Val) t, JPackableL E.lib E.tys l → jdepthL l ≤ n →
    ((E.server ≠ none ∨ ¬ JForeignL E.tys l) → ∃ t' ws, mapS (jpack E n) t l = (t', .ok ws)) ∧
    ((E.server = none ∧ JForeignL E.tys l) → mapS (jpack E n) t l = (t, .error .typeError))
  | [], t, _, _ => ⟨fun _ => ⟨t, [], rfl⟩, fun h => by simp [JForeignL] at h⟩
  | v :: vs, t, hp, hd => by
    simp only [JPackableL] at hp
    simp only [jdepthL] at hd
    have h1 := hn t v hp.1 (by omega)
    constructor
    · intro h
      obtain ⟨t1, w, hw⟩ := h1.1 (by
        rcases h with h | h
        · exact Or.inl h
        · simp only [JForeignL, not_or] at h; exact Or.inr h.1)
      obtain ⟨t2, ws, hws⟩ := (jpackL_total hn vs t1 hp.2 (by omega)).1 (by
        rcases h with h | h
        · exact Or.inl h
        · simp only [JForeignL, not_or] at h; exact Or.inr h.2)
      exact ⟨t2, w :: ws, by simp [mapS, hw, hws]⟩
    · rintro ⟨hs, hf⟩
      by_cases hv : JForeign E.tys v
      · simp [mapS, h1.2 ⟨hs, hv⟩]
      · obtain ⟨t1, w, hw⟩ := h1.1 (Or.inr hv)
        have ht1 : t1 = t := by have := jpack_noServer hs n t v; rw [hw] at this; exact this
        subst ht1
        have := (jpackL_total hn vs t1 hp.2 (by omega)).2 ⟨hs, by simpa [JForeignL, hv] using hf⟩
        simp [mapS, hw, this]

theorem jpackD_total {E n} (hn : JPackT E n) : ∀ (l : List (Val × Val)) t, (∀ e ∈ l, ∃ s, jkey E.lib e.1 = .ok s) →
    JPackableD E.lib E.tys l → jdepthD l ≤ n →
    ((E.server ≠ none ∨ ¬ JForeignD E.tys l) → ∃ t' ws, mapS (jpair E.lib (jpack E n)) t l = (t', .ok ws)) ∧
    ((E.server = none ∧ JForeignD E.tys l) → mapS (jpair E.lib (jpack E n)) t l = (t, .error .typeError))
  | [], t, _, _, _ => ⟨fun _ => ⟨t, [], rfl⟩, fun h => by simp [JForeignD] at h⟩
  | (k, v) :: vs, t, hk, hp, hd => by
    simp only [JPackableD] at hp
    simp only [jdepthD] at hd
    have h1 := hn t v hp.1 (by omega)
    obtain ⟨ks, hks⟩ := hk (k, v) (by simp)
    simp only at hks
    have hk' : ∀ e ∈ vs, ∃ s, jkey E.lib e.1 = .ok s := fun e he => hk e (by simp [he])
    constructor
    · intro h
      obtain ⟨t1, w, hw⟩ := h1.1 (by
        rcases h with h | h
        · exact Or.inl h
        · simp only [JForeignD, not_or] at h; exact Or.inr h.1)
      obtain ⟨t2, ws, hws⟩ := (jpackD_total hn vs t1 hk' hp.2 (by omega)).1 (by
        rcases h with h | h
        · exact Or.inl h
        · simp only [JForeignD, not_or] at h; exact Or.inr h.2)
      exact ⟨t2, (.str ks, w) :: ws, by simp [mapS, jpair, hks, hw, hws]⟩
    · rintro ⟨hs, hf⟩
      by_cases hv : JForeign E.tys v
      · simp [mapS, jpair, hks, h1.2 ⟨hs, hv⟩]
      · obtain ⟨t1, w, hw⟩ := h1.1 (Or.inr hv)
        have ht1 : t1 = t := by have := jpack_noServer hs n t v; rw [hw] at this; exact this
        subst ht1
        have := (jpackD_total hn vs t1 hk' hp.2 (by omega)).2 ⟨hs, by simpa [JForeignD, hv] using hf⟩
        simp [mapS, jpair, hks, hw, this]

theorem jpackableL_int {L tys} : ∀ l : List Nat, JPackableL L tys (l.map fun (n : Nat) => Val.int n)
  | [] => by simp [JPackableL]
  | n :: l => by simp only [List.map_cons, JPackableL, JPackable, true_and]; exact jpackableL_int l

theorem jpackableL_str {L tys} : ∀ l : List String, JPackableL L tys (l.map Val.str)
  | [] => by simp [JPackableL]
  | n :: l => by simp only [List.map_cons, JPackableL, JPackable, true_and]; exact jpackableL_str l

theorem jforeignL_int {tys} : ∀ l : List Nat, ¬ JForeignL tys (l.map fun (n : Nat) => Val.int n)
  | [] => by simp [JForeignL]
  | n :: l => by simp only [List.map_cons, JForeignL, JForeign, false_or]; exact jforeignL_int l

theorem jforeignL_str {tys} : ∀ l : List String, ¬ JForeignL tys (l.map Val.str)
  | [] => by simp [JForeignL]
  | n :: l => by simp only [List.map_cons, JForeignL, JForeign, false_or]; exact jforeignL_str l

theorem jdepthL_int : ∀ l : List Nat, jdepthL (l.map fun (n : Nat) => Val.int n) ≤ 1
  | [] => by simp [jdepthL]
  | n :: l => by
    have := jdepthL_int l
    simp only [List.map_cons, jdepthL, Val.jdepth]
    omega

theorem jdepthL_str : ∀ l : List String, jdepthL (l.map Val.str) ≤ 1
  | [] => by simp [jdepthL]
  | n :: l => by
    have := jdepthL_str l
    simp only [List.map_cons, jdepthL, Val.jdepth]
    omega

/-- a dict with string keys and no foreign object packs -/
theorem jpackTag_total {E n} (hn : JPackT E n) {d : List (Val × Val)} {t : Refs} (hk : ∀ e ∈ d, ∃ s, e.1 = .str s)
    (hp : JPackableD E.lib E.tys d) (hd : jdepthD d ≤ n) (hf : ¬ JForeignD E.tys d) {v : Val}
    (he : jencode E t v = (t, .ok d)) : ∃ t' w, JVia E n t v = (t', .ok w) := by
  obtain ⟨t', ws, hw⟩ := (jpackD_total hn d t (fun e he => by
    obtain ⟨s, hs⟩ := hk e he
    exact ⟨s, by rw [hs]; rfl⟩) hp hd).1 (Or.inr hf)
  exact ⟨t', .map ws, by simp only [JVia, he, hw]⟩

theorem jproxyState_total {E n} (hn : JPackT E n) (hs : E.server ≠ none) (h3 : 3 ≤ n + 1) (p : Proxy) (t : Refs) :
    ∃ t' ws, mapS (jpair E.lib (jpack E n)) t ((.str encodeKey, .str "proxy") :: p.getstate) = (t', .ok ws) := by
  refine (jpackD_total hn _ t ?_ ?_ ?_).1 (Or.inl hs)
  · simp only [Proxy.getstate, List.mem_cons, List.not_mem_nil, or_false]
    rintro e (rfl | rfl | rfl | rfl | rfl | rfl)
    all_goals exact ⟨_, rfl⟩
  · simp [JPackableD, JPackable, jpackableL_str, Proxy.getstate]
  · have := jdepthL_str p.attrs
    simp only [jdepthD, Val.jdepth, Proxy.getstate]
    omega

theorem jvia_pickle {E : SendEnv} {n} (hn : JPackT E n) {v : Val} (t : Refs) (hi : v.isinstance E.tys = true)
    (hf : v.jflattened = false) {b : Bytes} (hb : E.lib.pickleDumps v = .ok b) (hd : 3 ≤ n + 1) :
    ∃ t' w, JVia E n t v = (t', .ok w) := by
  have hjf : (match v.core with | .dtype _ | .obj _ _ => false | _ => true) = false := hf
  have he : jencode E t v = (t, .ok [(.str encodeKey, .str "pickle"), (.str "pickle_str", .bytes b)]) := by
    unfold jencode
    have : encode E t v = (t, .ok [(.str encodeKey, .str "pickle"), (.str "pickle_str", .bytes b)]) := by
      simp only [encode, hi, if_true, encodeValue]
      revert hjf
      cases v.core <;> simp [hb]
    revert hjf
    cases v.core <;> simp [this]
  refine jpackTag_total hn ?_ ?_ ?_ ?_ he
  · simp
  · simp [JPackableD, JPackable]
  · simp only [jdepthD, Val.jdepth]; omega
  · simp [JForeignD, JForeign]

theorem jvia_proxy {E : SendEnv} {n} (hn : JPackT E n) {v : Val} (t : Refs)
    (hi : v.isinstance E.tys = false) (hf : v.jflattened = false) (hd : 3 ≤ n + 1) :
    (E.server ≠ none → ∃ t' w, JVia E n t v = (t', .ok w)) ∧
    (E.server = none → JVia E n t v = (t, .error .typeError)) := by
  have hjf : (match v.core with | .dtype _ | .obj _ _ => false | _ => true) = false := hf
  have he : jencode E t v = encode E t v := by
    unfold jencode
    revert hjf
    cases v.core <;> simp
  constructor
  · intro h
    obtain ⟨addr, ha⟩ := Option.ne_none_iff_exists'.1 h
    obtain ⟨t1, oid, rid, hg⟩ := getProxy_succeeds E.idOf t (E.ident v)
    obtain ⟨t', ws, hws⟩ := jproxyState_total hn h hd ⟨addr, oid, rid, E.typeStr v, []⟩ t1
    exact ⟨t', .map ws, by simp only [JVia, he, encode, hi, ha, hg, encodeValue, Val.core, Bool.false_eq_true, if_false, hws]⟩
  · intro h
    simp only [JVia, he, encode, hi, h]; rfl

theorem jflat_core' {L : Lib} {tys : List Ty} : ∀ v : Val, v.jflattened = true →
    (JPackable L tys v → JPackable L tys v.core) ∧ v.core.jdepth ≤ v.jdepth ∧ (JForeign tys v ↔ JForeign tys v.core)
  | .sub c v, hf => by
    have hf' : v.jflattened = true := by simpa [Val.jflattened, Val.core] using hf
    obtain ⟨h1, h2, h3⟩ := jflat_core' (L := L) (tys := tys) v hf'
    refine ⟨?_, ?_, ?_⟩
    · simp only [JPackable, hf', if_true, Val.core]; exact h1
    · simp only [Val.core, Val.jdepth, hf', if_true]; exact h2
    · simp only [JForeign, hf', if_true, Val.core]; exact h3
  | .none, hf | .bool _, hf | .int _, hf | .float _, hf | .str _, hf | .bytes _, hf
  | .list _, hf | .tuple _, hf | .dict _, hf | .datetime _, hf | .date _, hf | .ndarray _, hf
  | .npScalar _, hf | .dtype _, hf | .proxy _, hf | .obj _ _, hf =>
    ⟨id, Nat.le_refl _, Iff.rfl⟩

theorem jpackT {E : SendEnv} (hL : E.lib.Laws) (hty : ∀ ty ∈ defaultTypes, ty ∈ E.tys) : ∀ n, JPackT E n := by
  intro n
  induction n with
  | zero => intro t v _ hd; have := jdepth_pos v; omega
  | succ n ih =>
    intro t v hp hd
    have inst : ∀ {v : Val}, (match v.core with | .obj _ _ => False | .npScalar s => s.exact | _ => True) →
        v.isinstance E.tys = true := isinstance_default hty
    have hun : jpack E (n + 1) t v = (match v.core with
      | .none => (t, .ok .nil)
      | .bool b => (t, .ok (.bool b))
      | .int i => (t, .ok (.int i))
      | .float f => (t, .ok (.float f))
      | .str s => (t, .ok (.str s))
      | .list l | .tuple l =>
        match mapS (jpack E n) t l with
        | (t', .ok ws) => (t', Except.ok (Wire.arr ws))
        | (t', .error e) => (t', .error e)
      | .dict d =>
        match mapS (jpair E.lib (jpack E n)) t d with
        | (t', .ok m) => (t', Except.ok (Wire.map m))
        | (t', .error e) => (t', .error e)
      | .npScalar s =>
        match s.dtype.kind, s.dtype.itemsize, s.val with
        | .floating, 8, .float f => (t, .ok (.float f))
        | _, _, _ => JVia E n t v
      | _ => JVia E n t v) := by
        simp only [jpack, JVia]
        cases v.core <;> rfl
    by_cases hf : v.jflattened = true
    · obtain ⟨hpc, hdc, hfc⟩ := jflat_core' (L := E.lib) (tys := E.tys) v hf
      have hpc := hpc hp
      have hdc : v.core.jdepth ≤ n + 1 := by omega
      rw [hfc, hun]
      have hjf : (match v.core with | .dtype _ | .obj _ _ => false | _ => true) = true := hf
      have hns := fun c b => core_ne_sub c b v
      have inst' := fun h => inst (v := v) h
      -- values that go through the hook and contain nothing foreign
      have hook : ∀ (u : Val), v.core = u → ¬ JForeign E.tys u → (∃ t' w, JVia E n t v = (t', .ok w)) →
          ((E.server ≠ none ∨ ¬ JForeign E.tys u) → ∃ t' w, JVia E n t v = (t', .ok w)) ∧
          ((E.server = none ∧ JForeign E.tys u) → JVia E n t v = (t, .error .typeError)) :=
        fun u _ h1 h2 => ⟨fun _ => h2, fun h => absurd h.2 h1⟩
      cases hu : v.core
      case sub c b => exact absurd hu (hns c b)
      case dtype => simp [hu] at hjf
      case obj => simp [hu] at hjf
      case none => exact ⟨fun _ => ⟨_, _, rfl⟩, fun h => by simp [JForeign] at h⟩
      case bool => exact ⟨fun _ => ⟨_, _, rfl⟩, fun h => by simp [JForeign] at h⟩
      case int => exact ⟨fun _ => ⟨_, _, rfl⟩, fun h => by simp [JForeign] at h⟩
      case float => exact ⟨fun _ => ⟨_, _, rfl⟩, fun h => by simp [JForeign] at h⟩
      case str => exact ⟨fun _ => ⟨_, _, rfl⟩, fun h => by simp [JForeign] at h⟩
      case list l =>
        rw [hu] at hpc hdc
        simp only [JPackable, Val.jdepth, JForeign] at hpc hdc ⊢
        have := jpackL_total ih l t hpc (by omega)
        constructor
        · intro h; obtain ⟨t', ws, hw⟩ := this.1 h; exact ⟨t', .arr ws, by simp [hw]⟩
        · intro h; simp [this.2 h]
      case tuple l =>
        rw [hu] at hpc hdc
        simp only [JPackable, Val.jdepth, JForeign] at hpc hdc ⊢
        have := jpackL_total ih l t hpc (by omega)
        constructor
        · intro h; obtain ⟨t', ws, hw⟩ := this.1 h; exact ⟨t', .arr ws, by simp [hw]⟩
        · intro h; simp [this.2 h]
      case dict d =>
        rw [hu] at hpc hdc
        simp only [JPackable, Val.jdepth, JForeign] at hpc hdc ⊢
        have := jpackD_total ih d t hpc.1 hpc.2 (by omega)
        constructor
        · intro h; obtain ⟨t', ws, hw⟩ := this.1 h; exact ⟨t', .map ws, by simp [hw]⟩
        · intro h; simp [this.2 h]
      case bytes b =>
        rw [hu] at hdc; simp only [Val.jdepth] at hdc
        refine hook _ hu (by simp [JForeign]) ?_
        refine jpackTag_total ih ?_ ?_ ?_ ?_ (by simp only [jencode, hu]; rfl)
        · simp
        · simp [JPackableD, JPackable]
        · simp only [jdepthD, Val.jdepth]; omega
        · simp [JForeignD, JForeign]
      case ndarray a =>
        rw [hu] at hdc hpc; simp only [Val.jdepth, JPackable] at hdc hpc
        refine hook _ hu (by simp [JForeign]) ?_
        have e : (if a.cContiguous then a else a.ascontiguous) = a.toSend := rfl
        refine jpackTag_total ih ?_ ?_ ?_ ?_ (by
          simp only [jencode, hu, e, dataView_toSend, hpc, if_true]; rfl)
        · simp
        · simp [JPackableD, JPackable, jpackableL_int]
        · have := jdepthL_int a.toSend.shape
          simp only [jdepthD, Val.jdepth]; omega
        · simp [JForeignD, JForeign, jforeignL_int]
      case datetime x =>
        rw [hu] at hdc; simp only [Val.jdepth] at hdc
        refine hook _ hu (by simp [JForeign]) ?_
        have hi : v.isinstance E.tys = true := inst' (by simp [hu])
        refine jpackTag_total ih ?_ ?_ ?_ ?_ (by simp only [jencode, hu, encode, hi, if_true, encodeValue]; rfl)
        · simp
        · simp [JPackableD, JPackable]
        · simp only [jdepthD, Val.jdepth]; omega
        · simp [JForeignD, JForeign]
      case date x =>
        rw [hu] at hdc; simp only [Val.jdepth] at hdc
        refine hook _ hu (by simp [JForeign]) ?_
        have hi : v.isinstance E.tys = true := inst' (by simp [hu])
        refine jpackTag_total ih ?_ ?_ ?_ ?_ (by simp only [jencode, hu, encode, hi, if_true, encodeValue]; rfl)
        · simp
        · simp [JPackableD, JPackable]
        · simp only [jdepthD, Val.jdepth]; omega
        · simp [JForeignD, JForeign]
      case proxy p =>
        rw [hu] at hdc; simp only [Val.jdepth] at hdc
        refine hook _ hu (by simp [JForeign]) ?_
        have hi : v.isinstance E.tys = true := inst' (by simp [hu])
        refine jpackTag_total ih ?_ ?_ ?_ ?_ (by simp only [jencode, hu, encode, hi, if_true, encodeValue]; rfl)
        · simp [Proxy.getstate]
        · simp [JPackableD, JPackable, Proxy.getstate, jpackableL_str]
        · have := jdepthL_str p.attrs
          simp only [jdepthD, Val.jdepth, Proxy.getstate]; omega
        · simp [JForeignD, JForeign, Proxy.getstate, jforeignL_str]
      case npScalar s =>
        rw [hu] at hdc hpc; simp only [Val.jdepth, JPackable] at hdc hpc
        obtain ⟨hx, hkn⟩ := hpc
        have hi : v.isinstance E.tys = true := inst' (by simp only [hu]; exact hx)
        have hv : ∃ t' w, JVia E n t v = (t', .ok w) := by
          have key : ∃ x, encodeValue E.lib v =
              .ok [(.str encodeKey, .str "np_number"), (.str "dtype", .dtype s.dtype), (.str "value", x)] ∧
              JPackable E.lib E.tys x ∧ x.jdepth ≤ 1 ∧ ¬ JForeign E.tys x := by
            obtain ⟨dt, val⟩ := s
            unfold NpScalar.exact at hx
            cases hk : dt.kind <;> cases val <;> simp only [hk] at hx
            · rename_i b
              exact ⟨.bool b, by simp only [encodeValue, hu, NpScalar.toPy, hk], by simp [JPackable], by simp [Val.jdepth], by simp [JForeign]⟩
            · rename_i b
              exact ⟨.int b, by simp only [encodeValue, hu, NpScalar.toPy, hk], by simp [JPackable], by simp [Val.jdepth], by simp [JForeign]⟩
            · rename_i b
              exact ⟨.float b, by simp only [encodeValue, hu, NpScalar.toPy, hk], by simp [JPackable], by simp [Val.jdepth], by simp [JForeign]⟩
          obtain ⟨x, h1, h2, h3, h4⟩ := key
          refine jpackTag_total ih ?_ ?_ ?_ ?_ (by simp only [jencode, hu, encode, hi, if_true, h1]; rfl)
          · simp
          · simp [JPackableD, JPackable, h2, hkn]
          · simp only [jdepthD, Val.jdepth]; omega
          · simp [JForeignD, JForeign, h4]
        simp only
        split
        · exact ⟨fun _ => ⟨_, _, rfl⟩, fun h => by simp [JForeign] at h⟩
        · exact ⟨fun _ => hv, fun h => by simp [JForeign] at h⟩
    · have hf' : v.jflattened = false := by simpa using hf
      have hjf : (match v.core with | .dtype _ | .obj _ _ => false | _ => true) = false := hf'
      have hv : jpack E (n + 1) t v = JVia E n t v := by
        rw [hun]; revert hjf; cases v.core <;> simp
      rw [hv]
      have h3 : 3 ≤ v.jdepth := by
        cases v <;> simp [Val.core] at hjf <;> simp only [Val.jdepth] <;> try omega
        rename_i c u
        have : u.jflattened = false := hjf
        simp [this]
      have hpk : v.isinstance E.tys = true → ∃ b, E.lib.pickleDumps v = .ok b := by
        intro hi
        cases v <;> simp [Val.core] at hjf
        case sub c u =>
          have : u.jflattened = false := hjf
          simp only [JPackable, this] at hp; exact hp hi
        case obj => simp only [JPackable] at hp; exact hp hi
        case dtype => simp only [JPackable] at hp; exact hL.dtypePickles _ hp
      have hfo : JForeign E.tys v ↔ v.isinstance E.tys = false := by
        cases v <;> simp [Val.core] at hjf
        case sub c u =>
          have : u.jflattened = false := hjf
          simp [JForeign, this]
        case obj => simp [JForeign]
        case dtype => simp [JForeign, inst (v := .dtype _) (by simp [Val.core])]
      rw [hfo]
      by_cases hi : v.isinstance E.tys = true
      · obtain ⟨b, hb⟩ := hpk hi
        exact ⟨fun _ => jvia_pickle ih t hi hf' hb (by omega), fun h => by rw [hi] at h; simp at h⟩
      · have hi' : v.isinstance E.tys = false := by simpa using hi
        have := jvia_proxy ih t hi' hf' (by omega)
        refine ⟨fun h => this.1 ?_, fun h => this.2 h.1⟩
        rcases h with h | h
        · exact h
        · exact absurd hi' h

/-- A dict key without a JSON name makes serialization fail. -/
theorem jbadKey_fails {E : SendEnv} : ∀ n t v t' w, JBadKeyIn E.lib v → jpack E n t v ≠ (t', .ok w) := by
  intro n
  induction n with
  | zero => intro t v t' w _ h; simp [jpack] at h
  | succ n ih =>
    have hLst : ∀ (l : List Val) t t' ws, JBadKeyInL E.lib l → mapS (jpack E n) t l ≠ (t', .ok ws) := by
      intro l
      induction l with
      | nil => intro t t' ws hb; simp [JBadKeyInL] at hb
      | cons v l ihl =>
        intro t t' ws hb h
        simp only [mapS] at h
        split at h
        · simp at h
        · rename_i t1 b hv
          split at h
          · simp at h
          · rename_i t2 bs hl
            simp only [JBadKeyInL] at hb
            rcases hb with hb | hb
            · exact ih _ _ _ _ hb hv
            · exact ihl _ _ _ hb hl
    have hDct : ∀ (l : List (Val × Val)) t t' ws, JBadKeyInD E.lib l → mapS (jpair E.lib (jpack E n)) t l ≠ (t', .ok ws) := by
      intro l
      induction l with
      | nil => intro t t' ws hb; simp [JBadKeyInD] at hb
      | cons e l ihl =>
        intro t t' ws hb h
        obtain ⟨k, v⟩ := e
        simp only [mapS] at h
        split at h
        · simp at h
        · rename_i t1 b hv
          split at h
          · simp at h
          · rename_i t2 bs hl
            simp only [JBadKeyInD] at hb
            simp only [jpair] at hv
            split at hv
            · simp at hv
            · rename_i s hs
              split at hv
              · simp at hv
              · rename_i t3 w hw
                rcases hb with hb | hb | hb
                · unfold jkey at hs
                  revert hs hb
                  cases k.core <;> simp
                · exact ih _ _ _ _ hb hw
                · exact ihl _ _ _ hb hl
    intro t v t' w hb h
    have hcore : ∀ v, JBadKeyIn E.lib v → JBadKeyIn E.lib v.core := by
      intro v
      induction v using Val.core.induct with
      | case1 c u ihu => intro hb; simp only [JBadKeyIn, Val.core] at hb ⊢; exact ihu hb
      | case2 u hu => intro hb; cases u <;> first | exact hb | exact absurd rfl (hu _ _)
    have hb := hcore v hb
    simp only [jpack] at h
    cases hu : v.core <;> rw [hu] at hb <;> simp only [JBadKeyIn] at hb
    · simp only [hu] at h
      split at h
      · rename_i hw; exact hLst _ _ _ _ hb hw
      · simp at h
    · simp only [hu] at h
      split at h
      · rename_i hw; exact hLst _ _ _ _ hb hw
      · simp at h
    · simp only [hu] at h
      split at h
      · rename_i hw; exact hDct _ _ _ _ hb hw
      · simp at h
    · exact absurd hu (core_ne_sub _ _ v)

/-! ## reserved keys -/

theorem jarrives_text {L tys P} (hty : ∀ ty ∈ defaultTypes, ty ∈ tys) : ∀ (x x' : Val), JArrives L tys P x x' →
    (match x.core with | .proxy _ => False | .obj _ _ => False | _ => True) → x'.text? = x.text?
  | .sub c v, x', h, h2 => by
    simp only [JArrives] at h
    split at h
    · rw [jarrives_text hty v x' h (by simpa [Val.core] using h2)]; simp [Val.text?, Val.core]
    · rename_i hf
      have : (Val.sub c v).isinstance tys = true := by
        refine isinstance_default hty ?_
        simp only [Val.core, Val.jflattened] at h2 hf ⊢
        revert h2 hf
        cases v.core <;> simp
      rw [if_pos this] at h; subst h; rfl
  | .list _, k', h, _ => by simp only [JArrives] at h; obtain ⟨_, rfl, _⟩ := h; rfl
  | .tuple _, k', h, _ => by simp only [JArrives] at h; obtain ⟨_, rfl, _⟩ := h; rfl
  | .dict _, k', h, _ => by simp only [JArrives] at h; obtain ⟨_, rfl, _⟩ := h; rfl
  | .datetime _, k', h, _ => by simp only [JArrives] at h; subst h; rfl
  | .ndarray _, k', h, _ => by simp only [JArrives] at h; obtain ⟨_, rfl, _⟩ := h; rfl
  | .proxy _, k', _, h => by simp [Val.core] at h
  | .obj _ _, k', _, h => by simp [Val.core] at h
  | .none, k', h, _ => by simp only [JArrives] at h; subst h; rfl
  | .bool _, k', h, _ => by simp only [JArrives] at h; subst h; rfl
  | .int _, k', h, _ => by simp only [JArrives] at h; subst h; rfl
  | .float _, k', h, _ => by simp only [JArrives] at h; subst h; rfl
  | .str _, k', h, _ => by simp only [JArrives] at h; subst h; rfl
  | .bytes _, k', h, _ => by simp only [JArrives] at h; subst h; rfl
  | .date _, k', h, _ => by simp only [JArrives] at h; subst h; rfl
  | .npScalar _, k', h, _ => by
    simp only [JArrives] at h
    split at h <;> subst h <;> rfl
  | .dtype _, k', h, _ => by simp only [JArrives] at h; subst h; rfl

theorem jarrivesD_lookup {L tys P} (k : String) : ∀ (d d' : List (Val × Val)) (x : Val), JArrivesD L tys P d d' →
    d.Pairwise (fun a b => jkey L a.1 ≠ jkey L b.1) →
    lookupStr d k = some x → ∃ x', lookupStr d' k = some x' ∧ JArrives L tys P x x'
  | [], d', x, _, _, h => by simp [lookupStr] at h
  | (k', v) :: d, d', x, hA, hp, h => by
    simp only [JArrivesD] at hA
    obtain ⟨s, v', vs', rfl, h0, h1, h2⟩ := hA
    rw [List.pairwise_cons] at hp
    simp only [lookupStr]
    by_cases hk : k' = .str k
    · subst hk
      simp only [jkey, Val.core, Except.ok.injEq] at h0
      subst h0
      simp only [lookupStr, if_true, Option.some.injEq] at h
      subst h
      exact ⟨v', by simp, h1⟩
    · have hl : lookupStr d k = some x := by
        cases k' <;> simp only [lookupStr] at h <;> try exact h
        split at h
        · rename_i hs; subst hs; exact absurd rfl hk
        · exact h
      have hs : s ≠ k := by
        rintro rfl
        have hmem : ∃ e ∈ d, e.1 = .str s := by
          have : ¬ lookupStr d s = none := by rw [hl]; simp
          rw [lookupStr_none_keys] at this
          simp only [Classical.not_not] at this
          obtain ⟨e, h1, h2⟩ := List.mem_map.1 this
          exact ⟨e, h1, h2⟩
        obtain ⟨e, he, he2⟩ := hmem
        have := hp.1 e he
        rw [he2] at this
        exact this (by rw [h0]; rfl)
      simp only [hs, if_false]
      exact jarrivesD_lookup k d vs' x h2 hp.2 hl

/-- What the JSON `decode` makes of a dict with the reserved key never has the reserved key. -/
theorem jdecode_reserved {R : RecvEnv} {d d2 : List (Val × Val)} {x : Val} (hx : lookupStr d encodeKey = some x)
    (hp : x.text? ≠ some "pickle") (hq : x.text? ≠ some "proxy") (h : jdecode R d = .ok (.dict d2)) :
    lookupStr d2 encodeKey = none := by
  unfold jdecode at h
  split at h
  · repeat' split at h
    all_goals first | exact absurd h (buildArray_not_dict _ _ _ _) | simp at h
  · repeat' split at h
    all_goals simp at h
  · exact decode_reserved hx hp hq h

end Verif
