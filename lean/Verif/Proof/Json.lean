import Verif.Proof.SerializerMore
/-! # Lemmas about the JSON serializer -/
namespace Verif

mutual
theorem JArrives.mono {L tys} {P Q : Val → Val → Prop} (h : ∀ u v, P u v → Q u v) :
    ∀ v v', JArrives L tys P v v' → JArrives L tys Q v v'
  | .list l, v', hv => by
    simp only [JArrives] at hv ⊢
    obtain ⟨l', h1, h2⟩ := hv
    exact ⟨l', h1, JArrivesL.mono h l l' h2⟩
  | .tuple l, v', hv => by
    simp only [JArrives] at hv ⊢
    obtain ⟨l', h1, h2⟩ := hv
    exact ⟨l', h1, JArrivesL.mono h l l' h2⟩
  | .dict l, v', hv => by
    simp only [JArrives] at hv ⊢
    obtain ⟨l', h1, h2⟩ := hv
    exact ⟨l', h1, JArrivesD.mono h l l' h2⟩
  | .datetime d, v', hv => by simpa only [JArrives] using hv
  | .ndarray d, v', hv => by simpa only [JArrives] using hv
  | .proxy d, v', hv => by simp only [JArrives] at hv ⊢; exact h _ _ hv
  | .sub c v, v', hv => by
    simp only [JArrives] at hv ⊢
    split
    · rename_i hf; rw [if_pos hf] at hv; exact JArrives.mono h v v' hv
    · rename_i hf; rw [if_neg hf] at hv
      split
      · rename_i hi; rw [if_pos hi] at hv; exact hv
      · rename_i hi; rw [if_neg hi] at hv; exact h _ _ hv
  | .obj o ts, v', hv => by
    simp only [JArrives] at hv ⊢
    split
    · rename_i hi; rw [if_pos hi] at hv; exact hv
    · rename_i hi; rw [if_neg hi] at hv; exact h _ _ hv
  | .none, v', hv => by simpa only [JArrives] using hv
  | .bool _, v', hv => by simpa only [JArrives] using hv
  | .int _, v', hv => by simpa only [JArrives] using hv
  | .float _, v', hv => by simpa only [JArrives] using hv
  | .str _, v', hv => by simpa only [JArrives] using hv
  | .bytes _, v', hv => by simpa only [JArrives] using hv
  | .date _, v', hv => by simpa only [JArrives] using hv
  | .npScalar _, v', hv => by simpa only [JArrives] using hv
  | .dtype _, v', hv => by simpa only [JArrives] using hv
theorem JArrivesL.mono {L tys} {P Q : Val → Val → Prop} (h : ∀ u v, P u v → Q u v) :
    ∀ l l', JArrivesL L tys P l l' → JArrivesL L tys Q l l'
  | [], l', hv => by simpa only [JArrivesL] using hv
  | v :: vs, l', hv => by
    simp only [JArrivesL] at hv ⊢
    obtain ⟨v', vs', h1, h2, h3⟩ := hv
    exact ⟨v', vs', h1, JArrives.mono h v v' h2, JArrivesL.mono h vs vs' h3⟩
theorem JArrivesD.mono {L tys} {P Q : Val → Val → Prop} (h : ∀ u v, P u v → Q u v) :
    ∀ l l', JArrivesD L tys P l l' → JArrivesD L tys Q l l'
  | [], l', hv => by simpa only [JArrivesD] using hv
  | (_, v) :: vs, l', hv => by
    simp only [JArrivesD] at hv ⊢
    obtain ⟨s, v', vs', h1, h0, h2, h3⟩ := hv
    exact ⟨s, v', vs', h1, h0, JArrives.mono h v v' h2, JArrivesD.mono h vs vs' h3⟩
end

/-- Everything `jpack` produces at depth `n` unpacks as specified. -/
def JPackOk (E : SendEnv) (R : RecvEnv) (n : Nat) : Prop :=
  ∀ t v t' w, TableOk E t → JSendable R v → jpack E n t v = (t', .ok w) →
    TableOk E t' ∧ t.le t' ∧ ∃ v', junpack R w = .ok v' ∧ JArrives E.lib E.tys (ByProxy E R t') v v'

theorem jpackL_ok {E R n} (hn : JPackOk E R n) : ∀ (l : List Val) t t' ws, TableOk E t → JSendableL R l →
    mapS (jpack E n) t l = (t', .ok ws) →
    TableOk E t' ∧ t.le t' ∧ ∃ l', junpackL R ws = .ok l' ∧ JArrivesL E.lib E.tys (ByProxy E R t') l l'
  | [], t, t', ws, ht, _, h => by
    simp only [mapS, Prod.mk.injEq, Except.ok.injEq] at h
    obtain ⟨rfl, rfl⟩ := h
    exact ⟨ht, t.le_refl, [], rfl, by simp [JArrivesL]⟩
  | v :: vs, t, t', ws, ht, hs, h => by
    simp only [JSendableL] at hs
    simp only [mapS] at h
    split at h
    · simp at h
    · rename_i t1 w hw
      split at h
      · simp at h
      · rename_i t2 ws' hws
        simp only [Prod.mk.injEq, Except.ok.injEq] at h
        obtain ⟨rfl, rfl⟩ := h
        obtain ⟨ht1, hle1, v', hu, hA⟩ := hn _ _ _ _ ht hs.1 hw
        obtain ⟨ht2, hle2, l', hu2, hA2⟩ := jpackL_ok hn vs _ _ _ ht1 hs.2 hws
        refine ⟨ht2, Refs.le_trans hle1 hle2, v' :: l', by simp [junpackL, hu, hu2], ?_⟩
        simp only [JArrivesL]
        exact ⟨v', l', rfl, JArrives.mono (fun _ _ => ByProxy.mono hle2) _ _ hA, hA2⟩

theorem jpackD_ok {E R n} (hn : JPackOk E R n) : ∀ (d : List (Val × Val)) t t' m, TableOk E t →
    JSendableD R d →
    mapS (jpair E.lib (jpack E n)) t d = (t', .ok m) →
    TableOk E t' ∧ t.le t' ∧ ∃ d', junpackM R m = .ok d' ∧ JArrivesD E.lib E.tys (ByProxy E R t') d d'
  | [], t, t', ws, ht, _, h => by
    simp only [mapS, Prod.mk.injEq, Except.ok.injEq] at h
    obtain ⟨rfl, rfl⟩ := h
    exact ⟨ht, t.le_refl, [], rfl, by simp [JArrivesD]⟩
  | (k, v) :: vs, t, t', ws, ht, hs, h => by
    simp only [JSendableD] at hs
    simp only [mapS] at h
    split at h
    · simp at h
    · rename_i t1 kw hw
      split at h
      · simp at h
      · rename_i t2 ws' hws
        simp only [Prod.mk.injEq, Except.ok.injEq] at h
        obtain ⟨rfl, rfl⟩ := h
        simp only [jpair] at hw
        split at hw
        · simp at hw
        · rename_i s hk
          split at hw
          · simp at hw
          · rename_i t1' w hv
            simp only [Prod.mk.injEq, Except.ok.injEq] at hw
            obtain ⟨rfl, rfl⟩ := hw
            obtain ⟨ht1, hle1, v', hu, hA⟩ := hn _ _ _ _ ht hs.1 hv
            obtain ⟨ht2, hle2, l', hu2, hA2⟩ := jpackD_ok hn vs _ _ _ ht1 hs.2 hws
            refine ⟨ht2, Refs.le_trans hle1 hle2, (.str s, v') :: l', by simp [junpackM, hu, hu2], ?_⟩
            simp only [JArrivesD]
            exact ⟨s, v', l', rfl, hk, JArrives.mono (fun _ _ => ByProxy.mono hle2) _ _ hA, hA2⟩

/-- the names under which the items arrive -/
theorem JArrivesD.mem {L tys P} : ∀ {d d' : List (Val × Val)}, JArrivesD L tys P d d' → ∀ e' ∈ d', ∃ e ∈ d, ∃ s,
    e'.1 = .str s ∧ jkey L e.1 = .ok s
  | [], d', h, e', he => by simp only [JArrivesD] at h; subst h; simp at he
  | (k, v) :: d, d', h, e', he => by
    simp only [JArrivesD] at h
    obtain ⟨s, v', vs', rfl, h0, -, h3⟩ := h
    rcases List.mem_cons.1 he with he | he
    · subst he; exact ⟨(k, v), by simp, s, rfl, h0⟩
    · obtain ⟨e, h1, h2⟩ := JArrivesD.mem h3 e' he
      exact ⟨e, by simp [h1], h2⟩

theorem JArrivesD.pairwise {L tys P} : ∀ {d d' : List (Val × Val)}, JArrivesD L tys P d d' →
    d.Pairwise (fun a b => jkey L a.1 ≠ jkey L b.1) → d'.Pairwise (fun a b => keyEq a.1 b.1 = false)
  | [], d', h, _ => by simp only [JArrivesD] at h; subst h; simp
  | (k, v) :: d, d', h, hp => by
    simp only [JArrivesD] at h
    obtain ⟨s, v', vs', rfl, h0, -, h3⟩ := h
    rw [List.pairwise_cons] at hp ⊢
    refine ⟨?_, JArrivesD.pairwise h3 hp.2⟩
    intro e' he'
    obtain ⟨e, h1, s', h2, h4⟩ := JArrivesD.mem h3 e' he'
    have := hp.1 e h1
    rw [h0, h4] at this
    simp only [h2, keyEq, decide_eq_false_iff_not]
    rintro rfl; exact this rfl

theorem jpackMap_ok {E R n} (hn : JPackOk E R n) {d : List (Val × Val)} {t t' m} (ht : TableOk E t)
    (hp : d.Pairwise (fun a b => jkey E.lib a.1 ≠ jkey E.lib b.1)) (hs : JSendableD R d)
    (h : mapS (jpair E.lib (jpack E n)) t d = (t', .ok m)) :
    TableOk E t' ∧ t.le t' ∧ ∃ d', junpack R (.map m) = jdecode R d' ∧ JArrivesD E.lib E.tys (ByProxy E R t') d d' := by
  obtain ⟨h1, h2, d', h3, h4⟩ := jpackD_ok hn d t t' m ht hs h
  refine ⟨h1, h2, d', ?_, h4⟩
  simp only [junpack, h3]
  rw [dictOf_eq (JArrivesD.pairwise h4 hp)]

/-- A map whose keys are given strings. -/
theorem jpackTag_ok {E R n} (hn : JPackOk E R n) {d : List (Val × Val)} {t t' m} (ht : TableOk E t)
    (hp : d.Pairwise (fun a b => keyEq a.1 b.1 = false)) (hk : ∀ e ∈ d, ∃ s, e.1 = .str s) (hs : JSendableD R d)
    (h : mapS (jpair E.lib (jpack E n)) t d = (t', .ok m)) :
    TableOk E t' ∧ t.le t' ∧ ∃ d', junpack R (.map m) = jdecode R d' ∧ JArrivesD E.lib E.tys (ByProxy E R t') d d' := by
  refine jpackMap_ok hn ht ?_ hs h
  refine List.Pairwise.imp_of_mem ?_ hp
  intro a b ha hb hab
  obtain ⟨s, hs1⟩ := hk a ha
  obtain ⟨s', hs2⟩ := hk b hb
  rw [hs1, hs2] at hab ⊢
  simp only [keyEq, decide_eq_false_iff_not] at hab
  simpa [jkey, Val.core] using hab

theorem jarrivesL_int {L tys P} : ∀ {l : List Nat} {l' : List Val},
    JArrivesL L tys P (l.map fun (n : Nat) => Val.int n) l' → l' = l.map fun (n : Nat) => Val.int n
  | [], l', h => by simpa [JArrivesL] using h
  | n :: l, l', h => by
    simp only [List.map_cons, JArrivesL, JArrives] at h
    obtain ⟨v', vs', rfl, rfl, h3⟩ := h
    rw [jarrivesL_int h3]; rfl

theorem jarrivesL_str {L tys P} : ∀ {l : List String} {l' : List Val},
    JArrivesL L tys P (l.map Val.str) l' → l' = l.map Val.str
  | [], l', h => by simpa [JArrivesL] using h
  | n :: l, l', h => by
    simp only [List.map_cons, JArrivesL, JArrives] at h
    obtain ⟨v', vs', rfl, rfl, h3⟩ := h
    rw [jarrivesL_str h3]; rfl

theorem jsendableL_int {R} : ∀ l : List Nat, JSendableL R (l.map fun (n : Nat) => Val.int n)
  | [] => by simp [JSendableL]
  | n :: l => by simp only [List.map_cons, JSendableL, JSendable, true_and]; exact jsendableL_int l

theorem jsendableL_str {R} : ∀ l : List String, JSendableL R (l.map Val.str)
  | [] => by simp [JSendableL]
  | n :: l => by simp only [List.map_cons, JSendableL, JSendable, true_and]; exact jsendableL_str l

theorem jkey_str (L : Lib) (s : String) : jkey L (.str s) = .ok s := rfl

theorem jdecode_other {R : RecvEnv} {d : List (Val × Val)} {s : String}
    (h : lookupStr d encodeKey = some (.str s)) (h1 : s ≠ "ndarray") (h2 : s ≠ "bytes") : jdecode R d = decode R d := by
  unfold jdecode
  rw [h]
  simp only [Option.bind_some, Val.text?, Val.core]
  split
  · rename_i hh; simp only [Option.some.injEq] at hh; exact absurd hh h1
  · rename_i hh; simp only [Option.some.injEq] at hh; exact absurd hh h2
  · rfl

theorem jdecode_plain {R : RecvEnv} {d : List (Val × Val)} (h : lookupStr d encodeKey = none) :
    jdecode R d = .ok (.dict d) := by
  unfold jdecode
  simp only [h, Option.bind_none, decode]

/-- A flattened subclass instance behaves as its base value. -/
theorem jflat_core {L : Lib} {R : RecvEnv} {tys : List Ty} : ∀ v : Val, v.jflattened = true → JSendable R v →
    JSendable R v.core ∧ (∀ P v', JArrives L tys P v.core v' → JArrives L tys P v v')
  | .sub c v, hf, hs => by
    have hf' : v.jflattened = true := by simpa [Val.jflattened, Val.core] using hf
    simp only [JSendable] at hs
    obtain ⟨h1, h3⟩ := jflat_core (L := L) (tys := tys) v hf' (hs hf')
    refine ⟨h1, ?_⟩
    intro P v' hv
    simp only [JArrives, hf', if_true]
    exact h3 P v' hv
  | .none, hf, hs | .bool _, hf, hs | .int _, hf, hs | .float _, hf, hs | .str _, hf, hs | .bytes _, hf, hs
  | .list _, hf, hs | .tuple _, hf, hs | .dict _, hf, hs | .datetime _, hf, hs | .date _, hf, hs | .ndarray _, hf, hs
  | .npScalar _, hf, hs | .dtype _, hf, hs | .proxy _, hf, hs | .obj _ _, hf, hs =>
    ⟨hs, fun _ _ h => h⟩

theorem jpickled_ok {L : Lib} (hL : L.Laws) {E : SendEnv} {R : RecvEnv} (hR : R.lib = L) {n} (hn : JPackOk E R n)
    {u : Val} {b : Bytes} {t t' m} (ht : TableOk E t) (hb : L.pickleDumps u = .ok b)
    (h : mapS (jpair E.lib (jpack E n)) t [(.str encodeKey, .str "pickle"), (.str "pickle_str", .bytes b)] = (t', .ok m)) :
    TableOk E t' ∧ t.le t' ∧ junpack R (.map m) = .ok u := by
  obtain ⟨h1, h2, d', h3, h4⟩ := jpackTag_ok hn ht (by simp [keyEq, encodeKey]) (by simp)
    (by simp [JSendableD, JSendable]) h
  simp only [JArrivesD, JArrives, jkey_str, Except.ok.injEq] at h4
  obtain ⟨_, _, _, rfl, rfl, rfl, _, _, _, rfl, rfl, rfl, rfl⟩ := h4
  refine ⟨h1, h2, ?_⟩
  rw [h3, jdecode_other (s := "pickle") (by simp [lookupStr]) (by simp) (by simp)]
  have := hL.pickle _ _ hb
  simp only [decode, lookupStr, removeStr, encodeKey, Val.text?, Val.core, need, String.reduceEq, if_true, if_false, hR, this]

theorem jproxy_ok {E : SendEnv} {R : RecvEnv} {n} (hn : JPackOk E R n) {p : Proxy} {v : Val} {t t' m}
    (ht : TableOk E t) (hv : received R p = .ok v)
    (h : mapS (jpair E.lib (jpack E n)) t ((.str encodeKey, .str "proxy") :: p.getstate) = (t', .ok m)) :
    TableOk E t' ∧ t.le t' ∧ junpack R (.map m) = .ok v := by
  obtain ⟨h1, h2, d', h3, h4⟩ := jpackTag_ok hn ht (by simp [keyEq, encodeKey, Proxy.getstate])
    (by simp [Proxy.getstate]) (by simp [JSendableD, JSendable, Proxy.getstate, jsendableL_str]) h
  simp only [JArrivesD, JArrives, Proxy.getstate, jkey_str, Except.ok.injEq] at h4
  obtain ⟨_, _, _, rfl, rfl, rfl, _, _, _, rfl, rfl, rfl, _, _, _, rfl, rfl, rfl, _, _, _, rfl, rfl, rfl, _, _, _, rfl, rfl, rfl,
    _, _, _, rfl, rfl, ⟨l', rfl, hl⟩, rfl⟩ := h4
  rw [jarrivesL_str hl] at h3
  refine ⟨h1, h2, ?_⟩
  rw [h3, jdecode_other (s := "proxy") (by simp [lookupStr]) (by simp) (by simp)]
  have hp : proxyOfDict [(.str "rpc_addr", .str p.addr), (.str "obj_id", .int p.oid), (.str "ref_id", .int p.rid),
      (.str "type_str", .str p.typeStr), (.str "attributes", .list (p.attrs.map .str))] = .ok p := by
    simp [proxyOfDict, proxyAttrs, keyNames, lookupStr, proxyParams, Val.asStr?, Val.asNat?, Val.items, asStrs_map]
  simp only [decode, lookupStr, removeStr, encodeKey, Val.text?, Val.core, String.reduceEq, if_true, if_false, decodeProxy, hp]
  exact hv

theorem jsonArray_ok {L : Lib} (hL : L.Laws) {R : RecvEnv} (hR : R.lib = L) (a : NdArray) (ha : a.dtype.sendable L)
    (hb : startsWithC '[' a.dtype.name = false) :
    jdecode R [(.str encodeKey, .str "ndarray"), (.str "data", .str (String.ofList (b64encode a.tobytes))),
         (.str "dtype", .str a.dtype.name), (.str "shape", .list (a.shape.map fun (n : Nat) => .int n))]
      = .ok (.ndarray a.packed) := by
  obtain ⟨hk, h0, ho, hc⟩ := ha
  have hdt : R.lib.dtypeParse a.dtype.name = .ok a.dtype := by
    rw [hR]; exact hL.parse _ hk (by simp [hb]) (by simp [hc])
  simp only [jdecode, lookupStr, encodeKey, Option.bind_some, Val.text?, Val.core, Val.b64, need, String.reduceEq, if_true, if_false,
    String.toList_ofList, b64_roundtrip, dtypeArg, hdt]
  exact buildArray_ok a h0 ho _ (.inl rfl)

theorem jpackOk {L : Lib} (hL : L.Laws) {E : SendEnv} {R : RecvEnv} (hE : E.lib = L) (hR : R.lib = L)
    (hty : ∀ ty ∈ defaultTypes, ty ∈ E.tys) (hno : NotOwner E R) : ∀ n, JPackOk E R n := by
  intro n
  induction n with
  | zero => intro t v t' w _ _ h; simp [jpack] at h
  | succ n ih =>
    intro t v t' w ht hs h
    have inst : ∀ {v : Val}, (match v.core with | .obj _ _ => False | .npScalar s => s.exact | _ => True) →
        v.isinstance E.tys = true := isinstance_default hty
    -- the hook, split into its two steps
    have hdef : ∀ {v : Val}, (match jencode E t v with
        | (t1, .ok d) => (match mapS (jpair E.lib (jpack E n)) t1 d with
            | (t', .ok m) => (t', Except.ok (Wire.map m))
            | (t', .error e) => (t', .error e))
        | (t1, .error e) => (t1, .error e)) = (t', .ok w) →
        ∃ t1 d m, jencode E t v = (t1, .ok d) ∧ mapS (jpair E.lib (jpack E n)) t1 d = (t', .ok m) ∧ w = .map m := by
      intro v h
      split at h
      · rename_i t1 d hd
        split at h
        · rename_i t2 m hm
          simp only [Prod.mk.injEq, Except.ok.injEq] at h
          obtain ⟨rfl, rfl⟩ := h
          exact ⟨t1, d, m, hd, hm, rfl⟩
        · simp at h
      · simp at h
    by_cases hf : v.jflattened = true
    · obtain ⟨hsc, hAc⟩ := jflat_core (L := E.lib) (tys := E.tys) v hf hs
      suffices H : TableOk E t' ∧ t.le t' ∧ ∃ v', junpack R w = .ok v' ∧ JArrives E.lib E.tys (ByProxy E R t') v.core v' by
        obtain ⟨a, b, v', c, e⟩ := H
        exact ⟨a, b, v', c, hAc _ _ e⟩
      simp only [jpack] at h
      have hns := fun c b => core_ne_sub c b v
      have hcore : ∀ u, v.core = u → JSendable R u := fun u hu => hu ▸ hsc
      have hjf : (match v.core with | .dtype _ | .obj _ _ => false | _ => true) = true := hf
      cases hu : v.core
      case sub c b => exact absurd hu (hns c b)
      case dtype => simp [hu] at hjf
      case obj => simp [hu] at hjf
      case none => simp only [hu, Prod.mk.injEq, Except.ok.injEq] at h; obtain ⟨rfl, rfl⟩ := h
                   exact ⟨ht, t.le_refl, _, rfl, by simp [JArrives]⟩
      case bool => simp only [hu, Prod.mk.injEq, Except.ok.injEq] at h; obtain ⟨rfl, rfl⟩ := h
                   exact ⟨ht, t.le_refl, _, rfl, by simp [JArrives]⟩
      case int => simp only [hu, Prod.mk.injEq, Except.ok.injEq] at h; obtain ⟨rfl, rfl⟩ := h
                  exact ⟨ht, t.le_refl, _, rfl, by simp [JArrives]⟩
      case float => simp only [hu, Prod.mk.injEq, Except.ok.injEq] at h; obtain ⟨rfl, rfl⟩ := h
                    exact ⟨ht, t.le_refl, _, rfl, by simp [JArrives]⟩
      case str => simp only [hu, Prod.mk.injEq, Except.ok.injEq] at h; obtain ⟨rfl, rfl⟩ := h
                  exact ⟨ht, t.le_refl, _, rfl, by simp [JArrives]⟩
      case list l =>
        simp only [hu] at h
        split at h
        · rename_i t1 ws hw
          simp only [Prod.mk.injEq, Except.ok.injEq] at h; obtain ⟨rfl, rfl⟩ := h
          obtain ⟨a, b, l', c, e⟩ := jpackL_ok ih l _ _ _ ht (by simpa only [JSendable] using hcore _ hu) hw
          exact ⟨a, b, .list l', by simp [junpack, c], by simp only [JArrives]; exact ⟨l', rfl, e⟩⟩
        · simp at h
      case tuple l =>
        simp only [hu] at h
        split at h
        · rename_i t1 ws hw
          simp only [Prod.mk.injEq, Except.ok.injEq] at h; obtain ⟨rfl, rfl⟩ := h
          obtain ⟨a, b, l', c, e⟩ := jpackL_ok ih l _ _ _ ht (by simpa only [JSendable] using hcore _ hu) hw
          exact ⟨a, b, .list l', by simp [junpack, c], by simp only [JArrives]; exact ⟨l', rfl, e⟩⟩
        · simp at h
      case dict d =>
        simp only [hu] at h
        split at h
        · rename_i t1 ws hw
          simp only [Prod.mk.injEq, Except.ok.injEq] at h; obtain ⟨rfl, rfl⟩ := h
          have hsd := hcore _ hu
          simp only [JSendable, JKeysOk] at hsd
          obtain ⟨a, b, d', c, e⟩ := jpackMap_ok ih ht (by rw [hE, ← hR]; exact hsd.1.2.1) hsd.2 hw
          refine ⟨a, b, .dict d', ?_, by simp only [JArrives]; exact ⟨d', rfl, e⟩⟩
          rw [c, jdecode_plain]
          rw [lookupStr_none_keys]
          intro hmem
          obtain ⟨e', he', heq⟩ := List.mem_map.1 hmem
          obtain ⟨e0, he0, s, hs1, hs2⟩ := JArrivesD.mem e e' he'
          rw [hs1] at heq
          simp only [Val.str.injEq] at heq
          subst heq
          rw [hE, ← hR] at hs2
          exact hsd.1.2.2 e0 he0 hs2
        · simp at h
      case bytes b =>
        simp only [hu] at h
        obtain ⟨t1, d, m, h1, h2, rfl⟩ := hdef h
        simp only [jencode, hu, Prod.mk.injEq, Except.ok.injEq] at h1
        obtain ⟨rfl, rfl⟩ := h1
        obtain ⟨a1, a2, d', h3, h4⟩ := jpackTag_ok ih ht (by simp [keyEq, encodeKey]) (by simp)
          (by simp [JSendableD, JSendable]) h2
        simp only [JArrivesD, JArrives, jkey_str, Except.ok.injEq] at h4
        obtain ⟨_, _, _, rfl, rfl, rfl, _, _, _, rfl, rfl, rfl, rfl⟩ := h4
        refine ⟨a1, a2, .bytes b, ?_, by simp only [JArrives]⟩
        rw [h3]
        simp only [jdecode, lookupStr, encodeKey, Option.bind_some, Val.text?, Val.core, Val.b64, need, String.reduceEq, if_true, if_false,
          String.toList_ofList, b64_roundtrip]
      case ndarray x =>
        simp only [hu] at h
        obtain ⟨t1, d, m, h1, h2, rfl⟩ := hdef h
        have e : (if x.cContiguous then x else x.ascontiguous) = x.toSend := rfl
        simp only [jencode, hu, e, dataView_toSend, toSend_dtype, toSend_shape, Prod.mk.injEq] at h1
        obtain ⟨rfl, h1⟩ := h1
        split at h1
        · rename_i data hdata
          split at hdata
          · simp only [Except.ok.injEq] at hdata h1
            subst hdata; subst h1
            obtain ⟨a1, a2, d', h3, h4⟩ := jpackTag_ok ih ht (by simp [keyEq, encodeKey]) (by simp)
              (by simp [JSendableD, JSendable, jsendableL_int]) h2
            simp only [JArrivesD, JArrives, jkey_str, Except.ok.injEq] at h4
            obtain ⟨_, _, _, rfl, rfl, rfl, _, _, _, rfl, rfl, rfl, _, _, _, rfl, rfl, rfl, _, _, _, rfl, rfl, ⟨l', rfl, hl⟩, rfl⟩ := h4
            rw [jarrivesL_int hl] at h3
            have hsd := hcore _ hu
            simp only [JSendable] at hsd
            refine ⟨a1, a2, .ndarray x.packed, ?_, ?_⟩
            · rw [h3]; exact jsonArray_ok hL hR x (hR ▸ hsd.1) hsd.2
            · simp only [JArrives]
              exact ⟨_, rfl, ⟨rfl, rfl, fun idx hi => packed_elem x hi⟩, rfl⟩
          · simp at hdata
        · simp at h1
      case datetime x =>
        simp only [hu] at h
        obtain ⟨t1, d, m, h1, h2, rfl⟩ := hdef h
        have hi : v.isinstance E.tys = true := inst (by simp [hu])
        simp only [jencode, hu, encode, hi, if_true, encodeValue, Prod.mk.injEq, Except.ok.injEq] at h1
        obtain ⟨rfl, rfl⟩ := h1
        have hsd := hcore _ hu
        simp only [JSendable] at hsd
        obtain ⟨a1, a2, d', h3, h4⟩ := jpackTag_ok ih ht (by simp [keyEq, encodeKey]) (by simp)
          (by simp [JSendableD, JSendable]) h2
        simp only [JArrivesD, JArrives, jkey_str, Except.ok.injEq] at h4
        obtain ⟨_, _, _, rfl, rfl, rfl, _, _, _, rfl, rfl, rfl, rfl⟩ := h4
        refine ⟨a1, a2, .datetime { x with tz := none, fold := false }, ?_, by simp only [JArrives]⟩
        rw [h3, jdecode_other (s := "datetime") (by simp [lookupStr]) (by simp) (by simp)]
        have := parseDateTime_fmt (pad := E.lib.padYear) (t := x) hsd.1 (by rw [hE, ← hR]; exact hsd.2)
        simp [decode, lookupStr, removeStr, encodeKey, Val.text?, Val.core, need, this]
      case date x =>
        simp only [hu] at h
        obtain ⟨t1, d, m, h1, h2, rfl⟩ := hdef h
        have hi : v.isinstance E.tys = true := inst (by simp [hu])
        simp only [jencode, hu, encode, hi, if_true, encodeValue, Prod.mk.injEq, Except.ok.injEq] at h1
        obtain ⟨rfl, rfl⟩ := h1
        have hsd := hcore _ hu
        simp only [JSendable] at hsd
        obtain ⟨a1, a2, d', h3, h4⟩ := jpackTag_ok ih ht (by simp [keyEq, encodeKey]) (by simp)
          (by simp [JSendableD, JSendable]) h2
        simp only [JArrivesD, JArrives, jkey_str, Except.ok.injEq] at h4
        obtain ⟨_, _, _, rfl, rfl, rfl, _, _, _, rfl, rfl, rfl, rfl⟩ := h4
        refine ⟨a1, a2, .date x, ?_, by simp only [JArrives]⟩
        rw [h3, jdecode_other (s := "date") (by simp [lookupStr]) (by simp) (by simp)]
        have := parseDate_fmt (pad := E.lib.padYear) (d := x) hsd.1 (by rw [hE, ← hR]; exact hsd.2)
        simp [decode, lookupStr, removeStr, encodeKey, Val.text?, Val.core, need, this]
      case proxy p =>
        simp only [hu] at h
        obtain ⟨t1, d, m, h1, h2, rfl⟩ := hdef h
        have hi : v.isinstance E.tys = true := inst (by simp [hu])
        simp only [jencode, hu, encode, hi, if_true, encodeValue, Prod.mk.injEq, Except.ok.injEq] at h1
        obtain ⟨rfl, rfl⟩ := h1
        have hsd := hcore _ hu
        simp only [JSendable] at hsd
        obtain ⟨x, hx⟩ := hsd
        obtain ⟨a1, a2, a3⟩ := jproxy_ok ih ht hx h2
        exact ⟨a1, a2, x, a3, by simp only [JArrives, ByProxy]; exact hx⟩
      case npScalar s =>
        have hsd := hcore _ hu
        simp only [JSendable] at hsd
        obtain ⟨hx, hkn⟩ := hsd
        obtain ⟨dt, val⟩ := s
        have key : ∃ x, encodeValue E.lib v =
            .ok [(.str encodeKey, .str "np_number"), (.str "dtype", .dtype dt), (.str "value", x)] ∧
            npMake R.lib dt x = .ok (.npScalar ⟨dt, val⟩) ∧
            (∀ P v', JArrives E.lib E.tys P x v' → v' = x) ∧ JSendable R x := by
          unfold NpScalar.exact at hx
          cases hk : dt.kind <;> cases val <;> simp only [hk] at hx
          · rename_i b
            exact ⟨.bool b, by simp only [encodeValue, hu, NpScalar.toPy, hk], by simp only [npMake, hk], by simp [JArrives], by simp [JSendable]⟩
          · rename_i b
            exact ⟨.int b, by simp only [encodeValue, hu, NpScalar.toPy, hk], by simp only [npMake, hk], by simp [JArrives], by simp [JSendable]⟩
          · rename_i b
            exact ⟨.float b, by simp only [encodeValue, hu, NpScalar.toPy, hk], by simp only [npMake, hk], by simp [JArrives], by simp [JSendable]⟩
        simp only [hu] at h
        simp only [JArrives]
        split at h
        · rename_i f hk hsz
          simp only [Prod.mk.injEq, Except.ok.injEq] at h; obtain ⟨rfl, rfl⟩ := h
          exact ⟨ht, t.le_refl, .float f, rfl, by simp [hk, hsz]⟩
        · rename_i hnot
          have hi : v.isinstance E.tys = true := inst (by simp only [hu]; exact hx)
          obtain ⟨t1, d, m, h1, h2, rfl⟩ := hdef h
          obtain ⟨x, hx1, hx2, hxa, hxs⟩ := key
          simp only [jencode, hu, encode, hi, if_true, hx1, Prod.mk.injEq, Except.ok.injEq] at h1
          obtain ⟨rfl, rfl⟩ := h1
          obtain ⟨a1, a2, d', h3, h4⟩ := jpackTag_ok ih ht (by simp [keyEq, encodeKey]) (by simp)
            (by simp [JSendableD, JSendable, hxs]) h2
          simp only [JArrivesD, JArrives, jkey_str, Except.ok.injEq] at h4
          obtain ⟨_, _, _, rfl, rfl, rfl, _, _, _, rfl, rfl, rfl, _, _, _, rfl, rfl, hax, rfl⟩ := h4
          rw [hxa _ _ hax] at h3
          have hun : junpack R (.map m) = npMake R.lib dt x := by
            rw [h3, jdecode_other (s := "np_number") (by simp [lookupStr]) (by simp) (by simp)]
            simp only [decode, lookupStr, removeStr, encodeKey, Val.text?, Val.core, need, String.reduceEq, if_true, if_false]
          refine ⟨a1, a2, _, hun.trans hx2, ?_⟩
          · split
            · rename_i hk hsz; exact absurd rfl (hnot _ hk hsz)
            · rfl
    · have hjf : (match v.core with | .dtype _ | .obj _ _ => false | _ => true) = false := by
        rw [Bool.not_eq_true] at hf; exact hf
      have hff : v.flattened = false := by
        simp only [Val.flattened]; revert hjf; cases v.core <;> simp
      have hvia : ∃ t1 d m, encode E t v = (t1, .ok d) ∧ mapS (jpair E.lib (jpack E n)) t1 d = (t', .ok m) ∧ w = .map m := by
        simp only [jpack] at h
        cases hu : v.core <;> simp only [hu, Bool.true_eq_false] at hjf h
        all_goals
          obtain ⟨t1, d, m, h1, h2, h3⟩ := hdef h
          simp only [jencode, hu] at h1
          exact ⟨t1, d, m, h1, h2, h3⟩
      obtain ⟨t1, d, m, h1, h2, rfl⟩ := hvia
      have hres : TableOk E t' ∧ t.le t' ∧ ∃ v', junpack R (.map m) = .ok v' ∧
          (if v.isinstance E.tys then v' = v else ∃ p, v' = .proxy p ∧ E.server = some p.addr ∧
            t'.lookup p.oid = .ok (E.ident v) ∧ p.attrs = [] ∧ p.typeStr = E.typeStr v) := by
        unfold encode at h1
        split at h1
        · rename_i hi
          simp only [Prod.mk.injEq] at h1
          obtain ⟨rfl, h1⟩ := h1
          rw [hE] at h1
          obtain ⟨b, hb, rfl⟩ := encodeValue_pickle hff h1
          obtain ⟨a1, a2, a3⟩ := jpickled_ok hL hR ih ht hb h2
          exact ⟨a1, a2, v, a3, by simp [hi]⟩
        · rename_i hi
          split at h1
          · simp at h1
          · rename_i addr hserver
            obtain ⟨t2, oid, rid, hg, ht2, hle, hlk⟩ := getProxy_ok ht v
            rw [hg] at h1
            simp only [encodeValue, Val.core, Prod.mk.injEq, Except.ok.injEq] at h1
            obtain ⟨rfl, rfl⟩ := h1
            have hrec : received R ⟨addr, oid, rid, E.typeStr v, []⟩ = .ok (.proxy ⟨addr, oid, rid, E.typeStr v, []⟩) :=
              received_foreign hno (by simpa using hserver)
            obtain ⟨a1, a2, a3⟩ := jproxy_ok ih ht2 hrec h2
            refine ⟨a1, Refs.le_trans hle a2, _, a3, ?_⟩
            rw [if_neg hi]
            exact ⟨_, rfl, hserver, a2 _ _ hlk, rfl, rfl⟩
      obtain ⟨a1, a2, v', a3, a4⟩ := hres
      refine ⟨a1, a2, v', a3, ?_⟩
      cases v
      case dtype x =>
        rw [if_pos (inst (by simp [Val.core]))] at a4
        simpa only [JArrives] using a4
      case obj o ts =>
        simp only [JArrives]
        split
        · rename_i hi; rw [if_pos hi] at a4; exact a4
        · rename_i hi; rw [if_neg hi] at a4; exact a4
      case sub c u =>
        have hf' : ¬ u.jflattened = true := by simpa [Val.jflattened, Val.core] using hf
        simp only [JArrives]
        rw [if_neg hf']
        split
        · rename_i hi; rw [if_pos hi] at a4; exact a4
        · rename_i hi; rw [if_neg hi] at a4; exact a4
      all_goals simp [Val.core] at hjf

end Verif
