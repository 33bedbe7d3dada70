import Verif.Proof.Json
import Verif.Proof.SerializeTypes
/-! # Lemmas about arbitrary lists of serialize types with JSON -/
namespace Verif

mutual
theorem JSelected.mono {E R t t'} (h : t.le t') : ∀ v v', JSelected E R t v v' → JSelected E R t' v v'
  | .list l, v', hv => by
    simp only [JSelected] at hv ⊢
    obtain ⟨l', h1, h2⟩ := hv
    exact ⟨l', h1, JSelectedL.mono h l l' h2⟩
  | .tuple l, v', hv => by
    simp only [JSelected] at hv ⊢
    obtain ⟨l', h1, h2⟩ := hv
    exact ⟨l', h1, JSelectedL.mono h l l' h2⟩
  | .dict l, v', hv => by
    simp only [JSelected] at hv ⊢
    obtain ⟨l', h1, h2⟩ := hv
    exact ⟨l', h1, JSelectedD.mono h l l' h2⟩
  | .npScalar s, v', hv => by
    simp only [JSelected] at hv ⊢
    split
    · split at hv
      · rename_i a1 b1 c1 _ _ _ _ a2 b2 c2
        rw [c1] at c2; cases c2; exact hv
      · rename_i a b c _ _ _ hno; exact absurd c (hno _ a b)
    · split at hv
      · rename_i hno _ _ _ _ a b c; exact absurd c (hno _ a b)
      · split at hv
        · rename_i hi; rw [if_pos hi]; exact hv
        · rename_i hi; rw [if_neg hi]; exact hv.mono h
  | .sub c v, v', hv => by
    simp only [JSelected] at hv ⊢
    split at hv
    · rename_i hi; rw [if_pos hi]
      split at hv
      · rename_i hf; rw [if_pos hf]; exact JAsBase.mono h v v' hv
      · rename_i hf; rw [if_neg hf]; exact hv
    · rename_i hi; rw [if_neg hi]; exact hv.mono h
  | .none, v', hv | .bool _, v', hv | .int _, v', hv | .float _, v', hv | .str _, v', hv | .bytes _, v', hv | .datetime _, v', hv | .date _, v', hv | .ndarray _, v', hv | .dtype _, v', hv | .proxy _, v', hv | .obj _ _, v', hv => by
    simp only [JSelected] at hv ⊢
    split at hv
    · rename_i hi; rw [if_pos hi]; exact hv
    · rename_i hi; rw [if_neg hi]; exact hv.mono h
theorem JAsBase.mono {E R t t'} (h : t.le t') : ∀ v v', JAsBase E R t v v' → JAsBase E R t' v v'
  | .list l, v', hv => by
    simp only [JAsBase] at hv ⊢
    obtain ⟨l', h1, h2⟩ := hv
    exact ⟨l', h1, JSelectedL.mono h l l' h2⟩
  | .tuple l, v', hv => by
    simp only [JAsBase] at hv ⊢
    obtain ⟨l', h1, h2⟩ := hv
    exact ⟨l', h1, JSelectedL.mono h l l' h2⟩
  | .dict l, v', hv => by
    simp only [JAsBase] at hv ⊢
    obtain ⟨l', h1, h2⟩ := hv
    exact ⟨l', h1, JSelectedD.mono h l l' h2⟩
  | .sub c v, v', hv => by
    simp only [JAsBase] at hv ⊢
    exact JAsBase.mono h v v' hv
  | .none, v', hv | .bool _, v', hv | .int _, v', hv | .float _, v', hv | .str _, v', hv | .bytes _, v', hv | .datetime _, v', hv | .date _, v', hv | .ndarray _, v', hv | .dtype _, v', hv | .proxy _, v', hv | .obj _ _, v', hv | .npScalar _, v', hv => by simpa only [JAsBase] using hv
theorem JSelectedL.mono {E R t t'} (h : t.le t') : ∀ l l', JSelectedL E R t l l' → JSelectedL E R t' l l'
  | [], l', hl => by simpa only [JSelectedL] using hl
  | v :: vs, l', hl => by
    simp only [JSelectedL] at hl ⊢
    obtain ⟨v', vs', h1, h2, h3⟩ := hl
    exact ⟨v', vs', h1, JSelected.mono h v v' h2, JSelectedL.mono h vs vs' h3⟩
theorem JSelectedD.mono {E R t t'} (h : t.le t') : ∀ l l', JSelectedD E R t l l' → JSelectedD E R t' l l'
  | [], l', hl => by simpa only [JSelectedD] using hl
  | (k, v) :: vs, l', hl => by
    simp only [JSelectedD] at hl ⊢
    obtain ⟨s, v', vs', h1, h0, h2, h3⟩ := hl
    exact ⟨s, v', vs', h1, h0, JSelected.mono h v v' h2, JSelectedD.mono h vs vs' h3⟩
end

/-- Everything `jpack` produces at depth `n` unpacks as the serialize types say. -/
def JSelOk (E : SendEnv) (R : RecvEnv) (n : Nat) : Prop :=
  ∀ t v t' w, TableOk E t → JSendable R v → jpack E n t v = (t', .ok w) →
    TableOk E t' ∧ t.le t' ∧ ∃ v', junpack R w = .ok v' ∧ JSelected E R t' v v'

theorem jselL_ok {E R n} (hn : JSelOk E R n) : ∀ (l : List Val) t t' ws, TableOk E t → JSendableL R l →
    mapS (jpack E n) t l = (t', .ok ws) →
    TableOk E t' ∧ t.le t' ∧ ∃ l', junpackL R ws = .ok l' ∧ JSelectedL E R t' l l'
  | [], t, t', ws, ht, _, h => by
    simp only [mapS, Prod.mk.injEq, Except.ok.injEq] at h
    obtain ⟨rfl, rfl⟩ := h
    exact ⟨ht, t.le_refl, [], rfl, by simp [JSelectedL]⟩
  | v :: vs, t, t', ws, ht, hs, h => by
    simp only [JSendableL] at hs
    simp only [mapS] at h
    split at h
    · simp at h
    · rename_i t1 w hw
      split at h
      · simp at h
      · rename_i t2 ws' hws
        simp only [Prod.mk.injEq, Except.ok.injEq] at h
        obtain ⟨rfl, rfl⟩ := h
        obtain ⟨ht1, hle1, v', hu, hA⟩ := hn _ _ _ _ ht hs.1 hw
        obtain ⟨ht2, hle2, l', hu2, hA2⟩ := jselL_ok hn vs _ _ _ ht1 hs.2 hws
        refine ⟨ht2, Refs.le_trans hle1 hle2, v' :: l', by simp [junpackL, hu, hu2], ?_⟩
        simp only [JSelectedL]
        exact ⟨v', l', rfl, JSelected.mono hle2 _ _ hA, hA2⟩


theorem jselD_ok {E R n} (hn : JSelOk E R n) : ∀ (d : List (Val × Val)) t t' m, TableOk E t →
    JSendableD R d →
    mapS (jpair E.lib (jpack E n)) t d = (t', .ok m) →
    TableOk E t' ∧ t.le t' ∧ ∃ d', junpackM R m = .ok d' ∧ JSelectedD E R t' d d'
  | [], t, t', ws, ht, _, h => by
    simp only [mapS, Prod.mk.injEq, Except.ok.injEq] at h
    obtain ⟨rfl, rfl⟩ := h
    exact ⟨ht, t.le_refl, [], rfl, by simp [JSelectedD]⟩
  | (k, v) :: vs, t, t', ws, ht, hs, h => by
    simp only [JSendableD] at hs
    simp only [mapS] at h
    split at h
    · simp at h
    · rename_i t1 kw hw
      split at h
      · simp at h
      · rename_i t2 ws' hws
        simp only [Prod.mk.injEq, Except.ok.injEq] at h
        obtain ⟨rfl, rfl⟩ := h
        simp only [jpair] at hw
        split at hw
        · simp at hw
        · rename_i s hk
          split at hw
          · simp at hw
          · rename_i t1' w hv
            simp only [Prod.mk.injEq, Except.ok.injEq] at hw
            obtain ⟨rfl, rfl⟩ := hw
            obtain ⟨ht1, hle1, v', hu, hA⟩ := hn _ _ _ _ ht hs.1 hv
            obtain ⟨ht2, hle2, l', hu2, hA2⟩ := jselD_ok hn vs _ _ _ ht1 hs.2 hws
            refine ⟨ht2, Refs.le_trans hle1 hle2, (.str s, v') :: l', by simp [junpackM, hu, hu2], ?_⟩
            simp only [JSelectedD]
            exact ⟨s, v', l', rfl, hk, JSelected.mono hle2 _ _ hA, hA2⟩


theorem JSelectedD.mem {E R t} : ∀ {d d' : List (Val × Val)}, JSelectedD E R t d d' → ∀ e' ∈ d', ∃ e ∈ d, ∃ s,
    e'.1 = .str s ∧ jkey E.lib e.1 = .ok s
  | [], d', h, e', he => by simp only [JSelectedD] at h; subst h; simp at he
  | (k, v) :: d, d', h, e', he => by
    simp only [JSelectedD] at h
    obtain ⟨s, v', vs', rfl, h0, -, h3⟩ := h
    rcases List.mem_cons.1 he with he | he
    · subst he; exact ⟨(k, v), by simp, s, rfl, h0⟩
    · obtain ⟨e, h1, h2⟩ := JSelectedD.mem h3 e' he
      exact ⟨e, by simp [h1], h2⟩


theorem JSelectedD.pairwise {E R t} : ∀ {d d' : List (Val × Val)}, JSelectedD E R t d d' →
    d.Pairwise (fun a b => jkey E.lib a.1 ≠ jkey E.lib b.1) → d'.Pairwise (fun a b => keyEq a.1 b.1 = false)
  | [], d', h, _ => by simp only [JSelectedD] at h; subst h; simp
  | (k, v) :: d, d', h, hp => by
    simp only [JSelectedD] at h
    obtain ⟨s, v', vs', rfl, h0, -, h3⟩ := h
    rw [List.pairwise_cons] at hp ⊢
    refine ⟨?_, JSelectedD.pairwise h3 hp.2⟩
    intro e' he'
    obtain ⟨e, h1, s', h2, h4⟩ := JSelectedD.mem h3 e' he'
    have := hp.1 e h1
    rw [h0, h4] at this
    simp only [h2, keyEq, decide_eq_false_iff_not]
    rintro rfl; exact this rfl


theorem jselMap_ok {E R n} (hn : JSelOk E R n) {d : List (Val × Val)} {t t' m} (ht : TableOk E t)
    (hp : d.Pairwise (fun a b => jkey E.lib a.1 ≠ jkey E.lib b.1)) (hs : JSendableD R d)
    (h : mapS (jpair E.lib (jpack E n)) t d = (t', .ok m)) :
    TableOk E t' ∧ t.le t' ∧ ∃ d', junpack R (.map m) = jdecode R d' ∧ JSelectedD E R t' d d' := by
  obtain ⟨h1, h2, d', h3, h4⟩ := jselD_ok hn d t t' m ht hs h
  refine ⟨h1, h2, d', ?_, h4⟩
  simp only [junpack, h3]
  rw [dictOf_eq (JSelectedD.pairwise h4 hp)]


theorem jselTag_ok {E R n} (hn : JSelOk E R n) {d : List (Val × Val)} {t t' m} (ht : TableOk E t)
    (hp : d.Pairwise (fun a b => keyEq a.1 b.1 = false)) (hk : ∀ e ∈ d, ∃ s, e.1 = .str s) (hs : JSendableD R d)
    (h : mapS (jpair E.lib (jpack E n)) t d = (t', .ok m)) :
    TableOk E t' ∧ t.le t' ∧ ∃ d', junpack R (.map m) = jdecode R d' ∧ JSelectedD E R t' d d' := by
  refine jselMap_ok hn ht ?_ hs h
  refine List.Pairwise.imp_of_mem ?_ hp
  intro a b ha hb hab
  obtain ⟨s, hs1⟩ := hk a ha
  obtain ⟨s', hs2⟩ := hk b hb
  rw [hs1, hs2] at hab ⊢
  simp only [keyEq, decide_eq_false_iff_not] at hab
  simpa [jkey, Val.core] using hab


theorem jselected_str {E R t s v'} (h : JSelected E R t (.str s) v') : v' = .str s := by
  simpa [JSelected, Val.jnative, Val.core, PlainSent] using h
theorem jselected_int {E R t i v'} (h : JSelected E R t (.int i) v') : v' = .int i := by
  simpa [JSelected, Val.jnative, Val.core, PlainSent] using h
theorem jselected_bytes {E R t b v'} (h : JSelected E R t (.bytes b) v') : v' = .bytes b := by
  simpa [JSelected, Val.jnative, Val.core, PlainSent] using h
theorem jselected_float {E R t b v'} (h : JSelected E R t (.float b) v') : v' = .float b := by
  simpa [JSelected, Val.jnative, Val.core, PlainSent] using h
theorem jselected_bool {E R t b v'} (h : JSelected E R t (.bool b) v') : v' = .bool b := by
  simpa [JSelected, Val.jnative, Val.core, PlainSent] using h
theorem jselected_dtype {E R t d v'} (hty : Ty.npDtype ∈ E.tys) (h : JSelected E R t (.dtype d) v') : v' = .dtype d := by
  have : (Val.dtype d).isinstance E.tys = true := isinstance_of .npDtype (by simp [Val.core, Val.types]) hty
  simpa [JSelected, this, PlainSent] using h

theorem jselectedL_int {E R t} : ∀ {l : List Nat} {l' : List Val},
    JSelectedL E R t (l.map fun (n : Nat) => Val.int n) l' → l' = l.map fun (n : Nat) => Val.int n
  | [], l', h => by simpa [JSelectedL] using h
  | n :: l, l', h => by
    simp only [List.map_cons, JSelectedL] at h
    obtain ⟨v', vs', rfl, h2, h3⟩ := h
    rw [jselected_int h2]
    rw [jselectedL_int h3]; rfl


theorem jselectedL_str {E R t} : ∀ {l : List String} {l' : List Val},
    JSelectedL E R t (l.map Val.str) l' → l' = l.map Val.str
  | [], l', h => by simpa [JSelectedL] using h
  | n :: l, l', h => by
    simp only [List.map_cons, JSelectedL] at h
    obtain ⟨v', vs', rfl, h2, h3⟩ := h
    rw [jselected_str h2]
    rw [jselectedL_str h3]; rfl


theorem jpickled_sel {L : Lib} (hL : L.Laws) {E : SendEnv} {R : RecvEnv} (hR : R.lib = L) {n} (hn : JSelOk E R n)
    {u : Val} {b : Bytes} {t t' m} (ht : TableOk E t) (hb : L.pickleDumps u = .ok b)
    (h : mapS (jpair E.lib (jpack E n)) t [(.str encodeKey, .str "pickle"), (.str "pickle_str", .bytes b)] = (t', .ok m)) :
    TableOk E t' ∧ t.le t' ∧ junpack R (.map m) = .ok u := by
  obtain ⟨h1, h2, d', h3, h4⟩ := jselTag_ok hn ht (by simp [keyEq, encodeKey]) (by simp)
    (by simp [JSendableD, JSendable]) h
  simp only [JSelectedD, jkey_str, Except.ok.injEq] at h4
  obtain ⟨_, _, _, rfl, rfl, g1, _, _, _, rfl, rfl, g2, rfl⟩ := h4
  rw [jselected_str g1, jselected_bytes g2] at h3
  refine ⟨h1, h2, ?_⟩
  rw [h3, jdecode_other (s := "pickle") (by simp [lookupStr]) (by simp) (by simp)]
  have := hL.pickle _ _ hb
  simp only [decode, lookupStr, removeStr, encodeKey, Val.text?, Val.core, need, String.reduceEq, if_true, if_false, hR, this]


theorem jproxy_sel {E : SendEnv} {R : RecvEnv} {n} (hn : JSelOk E R n) {p : Proxy} {v : Val} {t t' m}
    (ht : TableOk E t) (hv : received R p = .ok v)
    (h : mapS (jpair E.lib (jpack E n)) t ((.str encodeKey, .str "proxy") :: p.getstate) = (t', .ok m)) :
    TableOk E t' ∧ t.le t' ∧ junpack R (.map m) = .ok v := by
  obtain ⟨h1, h2, d', h3, h4⟩ := jselTag_ok hn ht (by simp [keyEq, encodeKey, Proxy.getstate])
    (by simp [Proxy.getstate]) (by simp [JSendableD, JSendable, Proxy.getstate, jsendableL_str]) h
  simp only [JSelectedD, Proxy.getstate, jkey_str, Except.ok.injEq] at h4
  obtain ⟨_, _, _, rfl, rfl, g1, _, _, _, rfl, rfl, g2, _, _, _, rfl, rfl, g3, _, _, _, rfl, rfl, g4, _, _, _, rfl, rfl, g5,
    _, _, _, rfl, rfl, g6, rfl⟩ := h4
  simp only [JSelected] at g6
  obtain ⟨l', rfl, hl⟩ := g6
  rw [jselectedL_str hl, jselected_str g1, jselected_str g2, jselected_int g3, jselected_int g4, jselected_str g5] at h3
  refine ⟨h1, h2, ?_⟩
  rw [h3, jdecode_other (s := "proxy") (by simp [lookupStr]) (by simp) (by simp)]
  have hp : proxyOfDict [(.str "rpc_addr", .str p.addr), (.str "obj_id", .int p.oid), (.str "ref_id", .int p.rid),
      (.str "type_str", .str p.typeStr), (.str "attributes", .list (p.attrs.map .str))] = .ok p := by
    simp [proxyOfDict, proxyAttrs, keyNames, lookupStr, proxyParams, Val.asStr?, Val.asNat?, Val.items, asStrs_map]
  simp only [decode, lookupStr, removeStr, encodeKey, Val.text?, Val.core, String.reduceEq, if_true, if_false, decodeProxy, hp]
  exact hv


theorem jasBase_core {E R t} : ∀ (v v' : Val), JAsBase E R t v.core v' → JAsBase E R t v v'
  | .sub c v, v', h => by simp only [JAsBase]; exact jasBase_core v v' (by simpa only [Val.core] using h)
  | .none, _, h | .bool _, _, h | .int _, _, h | .float _, _, h | .str _, _, h | .bytes _, _, h | .datetime _, _, h | .date _, _, h | .ndarray _, _, h | .dtype _, _, h | .proxy _, _, h | .obj _ _, _, h | .npScalar _, _, h | .list _, _, h | .tuple _, _, h | .dict _, _, h => h

theorem jsel_of_base {E R t} (v v' : Val) (h : JAsBase E R t v.core v') (hb : v.jnative = true ∨ v.isinstance E.tys = true)
    (hf : v.jflattened = true) : JSelected E R t v v' := by
  cases v
  case sub c u =>
    simp only [JSelected]
    have hn : (Val.sub c u).jnative = u.jnative := by simp only [Val.jnative, Val.core]
    have hf' : u.jflattened = true := by simpa only [Val.jflattened, Val.core] using hf
    rw [hn] at hb
    rw [if_pos hb, if_pos hf']
    exact jasBase_core u v' (by simpa only [Val.core] using h)
  case list => simpa only [JSelected, JAsBase, Val.core] using h
  case tuple => simpa only [JSelected, JAsBase, Val.core] using h
  case dict => simpa only [JSelected, JAsBase, Val.core] using h
  case npScalar s =>
    simp only [JSelected, JAsBase, Val.core, Val.jnative] at h hb ⊢
    split
    · split at h
      · rename_i a1 b1 c1 _ _ _ _ a2 b2 c2
        rw [c1] at c2; cases c2; exact h
      · rename_i a b c _ _ _ hno; exact absurd c (hno _ a b)
    · rename_i hno
      split at h
      · rename_i a b c; exact absurd c (hno _ a b)
      · split at hb
        · rename_i a b c; exact absurd c (hno _ a b)
        · rw [if_pos (by simpa using hb)]; exact h
  all_goals
    simp only [JSelected]
    rw [if_pos hb]
    simpa only [JAsBase, Val.core] using h

/-- What is not native to JSON: pickled if listed, else wrapped. -/
theorem jsel_rest {E R t v v'} (hjn : v.jnative = false) (hjf : v.isinstance E.tys = true → v.jflattened = false)
    (h : if v.isinstance E.tys then v' = v else Wrapped E t v v') : JSelected E R t v v' := by
  cases v
  case sub c u =>
    have hn : u.jnative = false := by simpa only [Val.jnative, Val.core] using hjn
    simp only [JSelected, hn, Bool.false_eq_true, false_or]
    split
    · rename_i hi
      have : u.jflattened = false := by simpa only [Val.jflattened, Val.core] using hjf hi
      rw [if_pos hi] at h
      simp only [this, Bool.false_eq_true, if_false]
      exact h
    · rename_i hi
      rw [if_neg hi] at h
      exact h
  case npScalar s =>
    simp only [Val.jnative, Val.core] at hjn
    simp only [JSelected]
    split
    · rename_i a b c
      split at hjn
      · cases hjn
      · rename_i hno; exact absurd c (hno _ a b)
    · exact h
  case list => simp [Val.jnative, Val.core] at hjn
  case tuple => simp [Val.jnative, Val.core] at hjn
  case dict => simp [Val.jnative, Val.core] at hjn
  all_goals
    simp only [JSelected, hjn, Bool.false_eq_true, false_or]
    split
    · rename_i hi
      rw [if_pos hi] at h
      have := hjf hi
      first
        | (simp [Val.jflattened, Val.core] at this; done)
        | (simpa only [PlainSent] using h)
    · rename_i hi
      rw [if_neg hi] at h
      exact h

theorem jpackSel {L : Lib} (hL : L.Laws) {E : SendEnv} {R : RecvEnv} (hE : E.lib = L) (hR : R.lib = L)
    (hty : Ty.npDtype ∈ E.tys) (hno : NotOwner E R) : ∀ n, JSelOk E R n := by
  intro n
  induction n with
  | zero => intro t v t' w _ _ h; simp [jpack] at h
  | succ n ih =>
    intro t v t' w ht hs h
    -- the hook, split into its two steps
    have hdef : ∀ {v : Val}, (match jencode E t v with
        | (t1, .ok d) => (match mapS (jpair E.lib (jpack E n)) t1 d with
            | (t', .ok m) => (t', Except.ok (Wire.map m))
            | (t', .error e) => (t', .error e))
        | (t1, .error e) => (t1, .error e)) = (t', .ok w) →
        ∃ t1 d m, jencode E t v = (t1, .ok d) ∧ mapS (jpair E.lib (jpack E n)) t1 d = (t', .ok m) ∧ w = .map m := by
      intro v h
      split at h
      · rename_i t1 d hd
        split at h
        · rename_i t2 m hm
          simp only [Prod.mk.injEq, Except.ok.injEq] at h
          obtain ⟨rfl, rfl⟩ := h
          exact ⟨t1, d, m, hd, hm, rfl⟩
        · simp at h
      · simp at h
    by_cases hf : v.jflattened = true ∧ (v.jnative = true ∨ v.isinstance E.tys = true)
    · obtain ⟨hf, hb⟩ := hf
      obtain ⟨hsc, -⟩ := jflat_core (L := E.lib) (tys := E.tys) v hf hs
      suffices H : TableOk E t' ∧ t.le t' ∧ ∃ v', junpack R w = .ok v' ∧ JAsBase E R t' v.core v' by
        obtain ⟨a, b, v', c, e⟩ := H
        exact ⟨a, b, v', c, jsel_of_base _ _ e hb hf⟩
      simp only [jpack] at h
      have hns := fun c b => core_ne_sub c b v
      have hcore : ∀ u, v.core = u → JSendable R u := fun u hu => hu ▸ hsc
      have hjf : (match v.core with | .dtype _ | .obj _ _ => false | _ => true) = true := hf
      cases hu : v.core
      case sub c b => exact absurd hu (hns c b)
      case dtype => simp [hu] at hjf
      case obj => simp [hu] at hjf
      case none => simp only [hu, Prod.mk.injEq, Except.ok.injEq] at h; obtain ⟨rfl, rfl⟩ := h
                   exact ⟨ht, t.le_refl, _, rfl, by simp [JAsBase, PlainSent]⟩
      case bool => simp only [hu, Prod.mk.injEq, Except.ok.injEq] at h; obtain ⟨rfl, rfl⟩ := h
                   exact ⟨ht, t.le_refl, _, rfl, by simp [JAsBase, PlainSent]⟩
      case int => simp only [hu, Prod.mk.injEq, Except.ok.injEq] at h; obtain ⟨rfl, rfl⟩ := h
                  exact ⟨ht, t.le_refl, _, rfl, by simp [JAsBase, PlainSent]⟩
      case float => simp only [hu, Prod.mk.injEq, Except.ok.injEq] at h; obtain ⟨rfl, rfl⟩ := h
                    exact ⟨ht, t.le_refl, _, rfl, by simp [JAsBase, PlainSent]⟩
      case str => simp only [hu, Prod.mk.injEq, Except.ok.injEq] at h; obtain ⟨rfl, rfl⟩ := h
                  exact ⟨ht, t.le_refl, _, rfl, by simp [JAsBase, PlainSent]⟩
      case list l =>
        simp only [hu] at h
        split at h
        · rename_i t1 ws hw
          simp only [Prod.mk.injEq, Except.ok.injEq] at h; obtain ⟨rfl, rfl⟩ := h
          obtain ⟨a, b, l', c, e⟩ := jselL_ok ih l _ _ _ ht (by simpa only [JSendable] using hcore _ hu) hw
          exact ⟨a, b, .list l', by simp [junpack, c], by simp only [JAsBase]; exact ⟨l', rfl, e⟩⟩
        · simp at h
      case tuple l =>
        simp only [hu] at h
        split at h
        · rename_i t1 ws hw
          simp only [Prod.mk.injEq, Except.ok.injEq] at h; obtain ⟨rfl, rfl⟩ := h
          obtain ⟨a, b, l', c, e⟩ := jselL_ok ih l _ _ _ ht (by simpa only [JSendable] using hcore _ hu) hw
          exact ⟨a, b, .list l', by simp [junpack, c], by simp only [JAsBase]; exact ⟨l', rfl, e⟩⟩
        · simp at h
      case dict d =>
        simp only [hu] at h
        split at h
        · rename_i t1 ws hw
          simp only [Prod.mk.injEq, Except.ok.injEq] at h; obtain ⟨rfl, rfl⟩ := h
          have hsd := hcore _ hu
          simp only [JSendable, JKeysOk] at hsd
          obtain ⟨a, b, d', c, e⟩ := jselMap_ok ih ht (by rw [hE, ← hR]; exact hsd.1.2.1) hsd.2 hw
          refine ⟨a, b, .dict d', ?_, by simp only [JAsBase]; exact ⟨d', rfl, e⟩⟩
          rw [c, jdecode_plain]
          rw [lookupStr_none_keys]
          intro hmem
          obtain ⟨e', he', heq⟩ := List.mem_map.1 hmem
          obtain ⟨e0, he0, s, hs1, hs2⟩ := JSelectedD.mem e e' he'
          rw [hs1] at heq
          simp only [Val.str.injEq] at heq
          subst heq
          rw [hE, ← hR] at hs2
          exact hsd.1.2.2 e0 he0 hs2
        · simp at h
      case bytes b =>
        simp only [hu] at h
        obtain ⟨t1, d, m, h1, h2, rfl⟩ := hdef h
        simp only [jencode, hu, Prod.mk.injEq, Except.ok.injEq] at h1
        obtain ⟨rfl, rfl⟩ := h1
        obtain ⟨a1, a2, d', h3, h4⟩ := jselTag_ok ih ht (by simp [keyEq, encodeKey]) (by simp)
          (by simp [JSendableD, JSendable]) h2
        simp only [JSelectedD, jkey_str, Except.ok.injEq] at h4
        obtain ⟨_, _, _, rfl, rfl, g1, _, _, _, rfl, rfl, g2, rfl⟩ := h4
        rw [jselected_str g1, jselected_str g2] at h3
        refine ⟨a1, a2, .bytes b, ?_, by simp only [JAsBase, PlainSent]⟩
        rw [h3]
        simp only [jdecode, lookupStr, encodeKey, Option.bind_some, Val.text?, Val.core, Val.b64, need, String.reduceEq, if_true, if_false,
          String.toList_ofList, b64_roundtrip]
      case ndarray x =>
        simp only [hu] at h
        obtain ⟨t1, d, m, h1, h2, rfl⟩ := hdef h
        have e : (if x.cContiguous then x else x.ascontiguous) = x.toSend := rfl
        simp only [jencode, hu, e, dataView_toSend, toSend_dtype, toSend_shape, Prod.mk.injEq] at h1
        obtain ⟨rfl, h1⟩ := h1
        split at h1
        · rename_i data hdata
          split at hdata
          · simp only [Except.ok.injEq] at hdata h1
            subst hdata; subst h1
            obtain ⟨a1, a2, d', h3, h4⟩ := jselTag_ok ih ht (by simp [keyEq, encodeKey]) (by simp)
              (by simp [JSendableD, JSendable, jsendableL_int]) h2
            simp only [JSelectedD, jkey_str, Except.ok.injEq] at h4
            obtain ⟨_, _, _, rfl, rfl, g1, _, _, _, rfl, rfl, g2, _, _, _, rfl, rfl, g3, _, _, _, rfl, rfl, g4, rfl⟩ := h4
            simp only [JSelected] at g4
            obtain ⟨l', rfl, hl⟩ := g4
            rw [jselectedL_int hl, jselected_str g1, jselected_str g2, jselected_str g3] at h3
            have hsd := hcore _ hu
            simp only [JSendable] at hsd
            refine ⟨a1, a2, .ndarray x.packed, ?_, ?_⟩
            · rw [h3]; exact jsonArray_ok hL hR x (hR ▸ hsd.1) hsd.2
            · simp only [JAsBase, PlainSent]
              exact ⟨_, rfl, ⟨rfl, rfl, fun idx hi => packed_elem x hi⟩, rfl⟩
          · simp at hdata
        · simp at h1
      case datetime x =>
        simp only [hu] at h
        obtain ⟨t1, d, m, h1, h2, rfl⟩ := hdef h
        have hi : v.isinstance E.tys = true := by simpa [Val.jnative, hu] using hb
        simp only [jencode, hu, encode, hi, if_true, encodeValue, Prod.mk.injEq, Except.ok.injEq] at h1
        obtain ⟨rfl, rfl⟩ := h1
        have hsd := hcore _ hu
        simp only [JSendable] at hsd
        obtain ⟨a1, a2, d', h3, h4⟩ := jselTag_ok ih ht (by simp [keyEq, encodeKey]) (by simp)
          (by simp [JSendableD, JSendable]) h2
        simp only [JSelectedD, jkey_str, Except.ok.injEq] at h4
        obtain ⟨_, _, _, rfl, rfl, g1, _, _, _, rfl, rfl, g2, rfl⟩ := h4
        rw [jselected_str g1, jselected_str g2] at h3
        refine ⟨a1, a2, .datetime { x with tz := none, fold := false }, ?_, by simp only [JAsBase, PlainSent]⟩
        rw [h3, jdecode_other (s := "datetime") (by simp [lookupStr]) (by simp) (by simp)]
        have := parseDateTime_fmt (pad := E.lib.padYear) (t := x) hsd.1 (by rw [hE, ← hR]; exact hsd.2)
        simp [decode, lookupStr, removeStr, encodeKey, Val.text?, Val.core, need, this]
      case date x =>
        simp only [hu] at h
        obtain ⟨t1, d, m, h1, h2, rfl⟩ := hdef h
        have hi : v.isinstance E.tys = true := by simpa [Val.jnative, hu] using hb
        simp only [jencode, hu, encode, hi, if_true, encodeValue, Prod.mk.injEq, Except.ok.injEq] at h1
        obtain ⟨rfl, rfl⟩ := h1
        have hsd := hcore _ hu
        simp only [JSendable] at hsd
        obtain ⟨a1, a2, d', h3, h4⟩ := jselTag_ok ih ht (by simp [keyEq, encodeKey]) (by simp)
          (by simp [JSendableD, JSendable]) h2
        simp only [JSelectedD, jkey_str, Except.ok.injEq] at h4
        obtain ⟨_, _, _, rfl, rfl, g1, _, _, _, rfl, rfl, g2, rfl⟩ := h4
        rw [jselected_str g1, jselected_str g2] at h3
        refine ⟨a1, a2, .date x, ?_, by simp only [JAsBase, PlainSent]⟩
        rw [h3, jdecode_other (s := "date") (by simp [lookupStr]) (by simp) (by simp)]
        have := parseDate_fmt (pad := E.lib.padYear) (d := x) hsd.1 (by rw [hE, ← hR]; exact hsd.2)
        simp [decode, lookupStr, removeStr, encodeKey, Val.text?, Val.core, need, this]
      case proxy p =>
        simp only [hu] at h
        obtain ⟨t1, d, m, h1, h2, rfl⟩ := hdef h
        have hi : v.isinstance E.tys = true := by simpa [Val.jnative, hu] using hb
        simp only [jencode, hu, encode, hi, if_true, encodeValue, Prod.mk.injEq, Except.ok.injEq] at h1
        obtain ⟨rfl, rfl⟩ := h1
        have hsd := hcore _ hu
        simp only [JSendable] at hsd
        obtain ⟨x, hx⟩ := hsd
        obtain ⟨a1, a2, a3⟩ := jproxy_sel ih ht hx h2
        exact ⟨a1, a2, x, a3, by simp only [JAsBase, PlainSent]; exact hx⟩
      case npScalar s =>
        have hsd := hcore _ hu
        simp only [JSendable] at hsd
        obtain ⟨hx, hkn⟩ := hsd
        obtain ⟨dt, val⟩ := s
        have key : ∃ x, encodeValue E.lib v =
            .ok [(.str encodeKey, .str "np_number"), (.str "dtype", .dtype dt), (.str "value", x)] ∧
            npMake R.lib dt x = .ok (.npScalar ⟨dt, val⟩) ∧
            (∀ t v', JSelected E R t x v' → v' = x) ∧ JSendable R x := by
          unfold NpScalar.exact at hx
          cases hk : dt.kind <;> cases val <;> simp only [hk] at hx
          · rename_i b
            exact ⟨.bool b, by simp only [encodeValue, hu, NpScalar.toPy, hk], by simp only [npMake, hk], fun _ _ => jselected_bool, by simp [JSendable]⟩
          · rename_i b
            exact ⟨.int b, by simp only [encodeValue, hu, NpScalar.toPy, hk], by simp only [npMake, hk], fun _ _ => jselected_int, by simp [JSendable]⟩
          · rename_i b
            exact ⟨.float b, by simp only [encodeValue, hu, NpScalar.toPy, hk], by simp only [npMake, hk], fun _ _ => jselected_float, by simp [JSendable]⟩
        simp only [hu] at h
        simp only [JAsBase]
        split at h
        · rename_i f hk hsz
          simp only [Prod.mk.injEq, Except.ok.injEq] at h; obtain ⟨rfl, rfl⟩ := h
          exact ⟨ht, t.le_refl, .float f, rfl, by simp [hk, hsz]⟩
        · rename_i hnot
          have hi : v.isinstance E.tys = true := by
            rcases hb with hb | hb
            · simp only [Val.jnative, hu] at hb
              cases hb
            · exact hb
          obtain ⟨t1, d, m, h1, h2, rfl⟩ := hdef h
          obtain ⟨x, hx1, hx2, hxa, hxs⟩ := key
          simp only [jencode, hu, encode, hi, if_true, hx1, Prod.mk.injEq, Except.ok.injEq] at h1
          obtain ⟨rfl, rfl⟩ := h1
          obtain ⟨a1, a2, d', h3, h4⟩ := jselTag_ok ih ht (by simp [keyEq, encodeKey]) (by simp)
            (by simp [JSendableD, JSendable, hxs]) h2
          simp only [JSelectedD, jkey_str, Except.ok.injEq] at h4
          obtain ⟨_, _, _, rfl, rfl, g1, _, _, _, rfl, rfl, g2, _, _, _, rfl, rfl, hax, rfl⟩ := h4
          rw [hxa _ _ hax, jselected_str g1, jselected_dtype hty g2] at h3
          have hun : junpack R (.map m) = npMake R.lib dt x := by
            rw [h3, jdecode_other (s := "np_number") (by simp [lookupStr]) (by simp) (by simp)]
            simp only [decode, lookupStr, removeStr, encodeKey, Val.text?, Val.core, need, String.reduceEq, if_true, if_false]
          refine ⟨a1, a2, _, hun.trans hx2, ?_⟩
          · split
            · rename_i hk hsz; exact absurd rfl (hnot _ hk hsz)
            · rfl
    · have hjn : v.jnative = false := by
        cases hn : v.jnative with
        | false => rfl
        | true =>
          refine absurd ⟨?_, .inl rfl⟩ (hn ▸ hf)
          simp only [Val.jnative, Val.jflattened] at hn ⊢
          revert hn
          cases v.core <;> simp
      have hvia : ∃ t1 d m, encode E t v = (t1, .ok d) ∧ mapS (jpair E.lib (jpack E n)) t1 d = (t', .ok m) ∧ w = .map m := by
        simp only [jpack] at h
        simp only [Val.jnative] at hjn
        cases hu : v.core <;> simp only [hu, Bool.true_eq_false] at hjn h
        case npScalar s =>
          split at h
          · rename_i a b c
            split at hjn
            · cases hjn
            · rename_i hno; exact absurd c (hno _ a b)
          · obtain ⟨t1, d, m, h1, h2, h3⟩ := hdef h
            simp only [jencode, hu] at h1
            exact ⟨t1, d, m, h1, h2, h3⟩
        all_goals
          obtain ⟨t1, d, m, h1, h2, h3⟩ := hdef h
          simp only [jencode, hu] at h1
          exact ⟨t1, d, m, h1, h2, h3⟩
      obtain ⟨t1, d, m, h1, h2, rfl⟩ := hvia
      have hres : TableOk E t' ∧ t.le t' ∧ ∃ v', junpack R (.map m) = .ok v' ∧
          (if v.isinstance E.tys then v' = v else Wrapped E t' v v') := by
        unfold encode at h1
        split at h1
        · rename_i hi
          have hff : v.flattened = false := by
            have hjf : ¬ v.jflattened = true := fun hx => hf ⟨hx, .inr hi⟩
            simp only [Val.jflattened] at hjf
            simp only [Val.flattened]; revert hjf; cases v.core <;> simp
          simp only [Prod.mk.injEq] at h1
          obtain ⟨rfl, h1⟩ := h1
          rw [hE] at h1
          obtain ⟨b, hb, rfl⟩ := encodeValue_pickle hff h1
          obtain ⟨a1, a2, a3⟩ := jpickled_sel hL hR ih ht hb h2
          exact ⟨a1, a2, v, a3, by simp [hi]⟩
        · rename_i hi
          split at h1
          · simp at h1
          · rename_i addr hserver
            obtain ⟨t2, oid, rid, hg, ht2, hle, hlk⟩ := getProxy_ok ht v
            rw [hg] at h1
            simp only [encodeValue, Val.core, Prod.mk.injEq, Except.ok.injEq] at h1
            obtain ⟨rfl, rfl⟩ := h1
            have hrec : received R ⟨addr, oid, rid, E.typeStr v, []⟩ = .ok (.proxy ⟨addr, oid, rid, E.typeStr v, []⟩) :=
              received_foreign hno (by simpa using hserver)
            obtain ⟨a1, a2, a3⟩ := jproxy_sel ih ht2 hrec h2
            refine ⟨a1, Refs.le_trans hle a2, _, a3, ?_⟩
            rw [if_neg hi]
            exact ⟨_, rfl, hserver, a2 _ _ hlk, rfl, rfl⟩
      obtain ⟨a1, a2, v', a3, a4⟩ := hres
      refine ⟨a1, a2, v', a3, ?_⟩
      have hjf : v.isinstance E.tys = true → v.jflattened = false := fun hi => by
        cases hx : v.jflattened with
        | false => rfl
        | true => exact absurd ⟨hx, .inr hi⟩ hf
      exact jsel_rest hjn hjf a4

end Verif
