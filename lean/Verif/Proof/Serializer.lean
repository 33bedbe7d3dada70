import Verif.Proof.NdArray
import Verif.Proof.Text
import Verif.Proof.Refs
/-! # Lemmas about the msgpack serializer -/
namespace Verif

/-! ## the table during serialization -/

/-- The table entries are consistent and the values about to be sent are alive together with the held objects. -/
structure TableOk (E : SendEnv) (t : Refs) : Prop where
  entry : ∀ oid o s, t.refs.get? oid = some (o, s) → t.idMap.get? (E.idOf o) = some oid
  idInj : ∀ a b n, t.idMap.get? a = some n → t.idMap.get? b = some n → a = b
  idLt : ∀ a n, t.idMap.get? a = some n → n < t.nextOid
  alive : ∀ u u', E.idOf (E.ident u) = E.idOf (E.ident u') → E.ident u = E.ident u'
  held : ∀ oid o s, t.refs.get? oid = some (o, s) → ∀ u, E.idOf o = E.idOf (E.ident u) → o = E.ident u

/-- everything resolvable stays resolvable -/
def Refs.le (t t' : Refs) : Prop := ∀ oid o, t.lookup oid = .ok o → t'.lookup oid = .ok o

theorem Refs.le_refl (t : Refs) : t.le t := fun _ _ h => h
theorem Refs.le_trans {a b c : Refs} (h : a.le b) (h' : b.le c) : a.le c := fun _ _ x => h' _ _ (h _ _ x)

theorem lookup_ok {t : Refs} {oid o} : t.lookup oid = .ok o ↔ ∃ s, t.refs.get? oid = some (o, s) := by
  unfold Refs.lookup
  split
  · rename_i o' s h; simp [h]
  · rename_i h; simp [h]

theorem getProxy_ok {E : SendEnv} {t : Refs} (ht : TableOk E t) (u : Val) :
    ∃ t' oid rid, t.getProxy E.idOf (E.ident u) [] = (t', .ok (oid, rid)) ∧ TableOk E t' ∧ t.le t' ∧
      t'.lookup oid = .ok (E.ident u) := by
  have hs := getObjectId_spec E.idOf { t with nextRid := t.nextRid + 1 } (E.ident u)
  unfold Refs.getProxy
  generalize hg : Refs.getObjectId E.idOf { t with nextRid := t.nextRid + 1 } (E.ident u) = g at hs
  obtain ⟨t1, oid⟩ := g
  obtain ⟨h1, h2, h3, h4⟩ := hs
  simp only at h1 h2 h3 h4
  simp only [hg, List.all_nil, if_true]
  refine ⟨_, _, _, rfl, ?_⟩
  -- the object recorded under oid
  have hobj : ∀ o s, t.refs.get? oid = some (o, s) → o = E.ident u := by
    intro o s hos
    have he := ht.entry _ _ _ hos
    rcases h4 with ⟨hn, hoid, -, -⟩ | ⟨hs, -⟩
    · have := ht.idLt _ _ he; omega
    · exact ht.held _ _ _ hos u (ht.idInj _ _ _ he hs)
  have href : ∃ s, ((t1.refs.get? oid).getD (E.ident u, [])) = (E.ident u, s) := by
    rw [h1]
    cases hr : t.refs.get? oid with
    | none => exact ⟨[], rfl⟩
    | some p => obtain ⟨o, s⟩ := p; exact ⟨s, by simp [hobj o s hr]⟩
  obtain ⟨s, hs⟩ := href
  simp only [hs]
  rw [h1]
  have hold : ∀ a n, t.idMap.get? a = some n → t1.idMap.get? a = some n := by
    intro a n ha
    rcases h4 with ⟨hn, -, -, hoth⟩ | ⟨-, rfl⟩
    · by_cases hc : a = E.idOf (E.ident u)
      · subst hc; rw [hn] at ha; simp at ha
      · rw [hoth a hc]; exact ha
    · exact ha
  have hnew : ∀ a n, t1.idMap.get? a = some n → t.idMap.get? a = some n ∨ (a = E.idOf (E.ident u) ∧ n = oid) := by
    intro a n ha
    by_cases hc : a = E.idOf (E.ident u)
    · subst hc; rw [h3] at ha; exact Or.inr ⟨rfl, by simpa using ha.symm⟩
    · rcases h4 with ⟨-, -, -, hoth⟩ | ⟨-, rfl⟩
      · rw [hoth a hc] at ha; exact Or.inl ha
      · exact Or.inl ha
  have hlt : t.nextOid ≤ t1.nextOid := by
    rcases h4 with ⟨-, -, h, -⟩ | ⟨-, rfl⟩
    · omega
    · exact Nat.le_refl _
  have hoid : oid < t1.nextOid := by
    rcases h4 with ⟨-, h, h', -⟩ | ⟨h, rfl⟩
    · omega
    · exact ht.idLt _ _ h
  have hfr : ∀ a, t.idMap.get? a = some oid → a = E.idOf (E.ident u) := by
    intro a ha
    rcases h4 with ⟨-, h, -, -⟩ | ⟨h, rfl⟩
    · have := ht.idLt _ _ ha; omega
    · exact ht.idInj _ _ _ ha h
  refine ⟨⟨?_, ?_, ?_, ht.alive, ?_⟩, ?_, ?_⟩
  · intro oid' o' s'
    simp only [Dict.get?_set]
    split
    · rename_i heq
      intro h; simp only [Option.some.injEq, Prod.mk.injEq] at h
      rw [← h.1, ← heq]; exact h3
    · intro h; exact hold _ _ (ht.entry _ _ _ h)
  · intro a b n ha hb
    rcases hnew _ _ ha with ha1 | ⟨ha1, hn⟩ <;> rcases hnew _ _ hb with hb1 | ⟨hb1, hn'⟩
    · exact ht.idInj _ _ _ ha1 hb1
    · subst hn'; rw [hb1]; exact hfr _ ha1
    · subst hn; rw [ha1]; exact (hfr _ hb1).symm
    · rw [ha1, hb1]
  · intro a n ha
    rcases hnew _ _ ha with ha | ⟨ha, hn⟩
    · exact Nat.lt_of_lt_of_le (ht.idLt _ _ ha) hlt
    · rw [hn]; exact hoid
  · intro oid' o' s'
    simp only [Dict.get?_set]
    split
    · intro h u' hu'; simp only [Option.some.injEq, Prod.mk.injEq] at h
      rw [← h.1] at hu' ⊢; exact ht.alive _ _ hu'
    · intro h; exact ht.held _ _ _ h
  · intro oid' o' h'
    rw [lookup_ok] at h' ⊢
    obtain ⟨s', h'⟩ := h'
    simp only [Dict.get?_set]
    split
    · rename_i heq; subst heq
      have := hobj _ _ h'; subst this
      exact ⟨_, rfl⟩
    · exact ⟨_, h'⟩
  · rw [lookup_ok]; exact ⟨_, by simp only [Dict.get?_set, if_true]; rfl⟩

/-! ## the relation -/

theorem ByProxy.mono {E R t t'} (h : t.le t') {u v'} (hb : ByProxy E R t u v') : ByProxy E R t' u v' := by
  cases u <;> simp only [ByProxy] at hb ⊢ <;> first | exact hb | skip
  all_goals
    obtain ⟨p, h1, h2, h3, h4⟩ := hb
    exact ⟨p, h1, h2, h _ _ h3, h4⟩

mutual
theorem Arrives.mono {tys} {P Q : Val → Val → Prop} (h : ∀ u v, P u v → Q u v) :
    ∀ v v', Arrives tys P v v' → Arrives tys Q v v'
  | .list l, v', hv => by
    simp only [Arrives] at hv ⊢
    obtain ⟨l', h1, h2⟩ := hv
    exact ⟨l', h1, ArrivesL.mono h l l' h2⟩
  | .tuple l, v', hv => by
    simp only [Arrives] at hv ⊢
    obtain ⟨l', h1, h2⟩ := hv
    exact ⟨l', h1, ArrivesL.mono h l l' h2⟩
  | .dict l, v', hv => by
    simp only [Arrives] at hv ⊢
    obtain ⟨l', h1, h2⟩ := hv
    exact ⟨l', h1, ArrivesD.mono h l l' h2⟩
  | .datetime d, v', hv => by simpa only [Arrives] using hv
  | .ndarray d, v', hv => by simpa only [Arrives] using hv
  | .proxy d, v', hv => by simp only [Arrives] at hv ⊢; exact h _ _ hv
  | .sub c v, v', hv => by
    simp only [Arrives] at hv ⊢
    split
    · rename_i hf; rw [if_pos hf] at hv; exact Arrives.mono h v v' hv
    · rename_i hf; rw [if_neg hf] at hv
      split
      · rename_i hi; rw [if_pos hi] at hv; exact hv
      · rename_i hi; rw [if_neg hi] at hv; exact h _ _ hv
  | .obj o ts, v', hv => by
    simp only [Arrives] at hv ⊢
    split
    · rename_i hi; rw [if_pos hi] at hv; exact hv
    · rename_i hi; rw [if_neg hi] at hv; exact h _ _ hv
  | .none, v', hv => by simpa only [Arrives] using hv
  | .bool _, v', hv => by simpa only [Arrives] using hv
  | .int _, v', hv => by simpa only [Arrives] using hv
  | .float _, v', hv => by simpa only [Arrives] using hv
  | .str _, v', hv => by simpa only [Arrives] using hv
  | .bytes _, v', hv => by simpa only [Arrives] using hv
  | .date _, v', hv => by simpa only [Arrives] using hv
  | .npScalar _, v', hv => by simpa only [Arrives] using hv
  | .dtype _, v', hv => by simpa only [Arrives] using hv
theorem ArrivesL.mono {tys} {P Q : Val → Val → Prop} (h : ∀ u v, P u v → Q u v) :
    ∀ l l', ArrivesL tys P l l' → ArrivesL tys Q l l'
  | [], l', hv => by simpa only [ArrivesL] using hv
  | v :: vs, l', hv => by
    simp only [ArrivesL] at hv ⊢
    obtain ⟨v', vs', h1, h2, h3⟩ := hv
    exact ⟨v', vs', h1, Arrives.mono h v v' h2, ArrivesL.mono h vs vs' h3⟩
theorem ArrivesD.mono {tys} {P Q : Val → Val → Prop} (h : ∀ u v, P u v → Q u v) :
    ∀ l l', ArrivesD tys P l l' → ArrivesD tys Q l l'
  | [], l', hv => by simpa only [ArrivesD] using hv
  | (_, v) :: vs, l', hv => by
    simp only [ArrivesD] at hv ⊢
    obtain ⟨v', vs', h1, h2, h3⟩ := hv
    exact ⟨v', vs', h1, Arrives.mono h v v' h2, ArrivesD.mono h vs vs' h3⟩
end


/-! ## dict reconstruction -/

theorem itemSet_new {d : List (Val × Val)} {k v : Val} (h : ∀ e ∈ d, keyEq e.1 k = false) :
    itemSet d k v = d ++ [(k, v)] := by
  induction d with
  | nil => rfl
  | cons e d ih =>
    obtain ⟨k', v'⟩ := e
    have h1 := h (k', v') (by simp)
    simp only [itemSet, h1, Bool.false_eq_true, if_false, List.cons_append]
    rw [ih (fun e he => h e (by simp [he]))]

theorem dictOf_eq {d : List (Val × Val)} (h : d.Pairwise (fun a b => keyEq a.1 b.1 = false)) : dictOf d = d := by
  unfold dictOf
  suffices H : ∀ acc : List (Val × Val), (acc ++ d).Pairwise (fun a b => keyEq a.1 b.1 = false) →
      d.foldl (fun d kv => itemSet d kv.1 kv.2) acc = acc ++ d by simpa using H [] (by simpa using h)
  clear h
  induction d with
  | nil => simp
  | cons e d ih =>
    intro acc hacc
    obtain ⟨k, v⟩ := e
    simp only [List.foldl_cons]
    rw [itemSet_new, ih]
    · simp
    · simpa using hacc
    · intro e he
      exact (List.pairwise_append.1 hacc).2.2 e he (k, v) (by simp)

theorem ArrivesD.keys {tys P} : ∀ {d d' : List (Val × Val)}, ArrivesD tys P d d' → d'.map (·.1) = d.map (·.1)
  | [], d', h => by simp only [ArrivesD] at h; subst h; rfl
  | (k, v) :: d, d', h => by
    simp only [ArrivesD] at h
    obtain ⟨v', vs', rfl, -, h3⟩ := h
    simp [ArrivesD.keys h3]

theorem pairwise_keys {r : Val → Val → Prop} {d d' : List (Val × Val)} (h : d'.map (·.1) = d.map (·.1))
    (hp : d.Pairwise (fun a b => r a.1 b.1)) : d'.Pairwise (fun a b => r a.1 b.1) := by
  have h1 : (d.map (·.1)).Pairwise r := List.pairwise_map.2 hp
  rw [← h] at h1
  exact List.pairwise_map.1 h1

theorem lookupStr_none_keys {k : String} : ∀ {d : List (Val × Val)},
    lookupStr d k = none ↔ Val.str k ∉ d.map (·.1)
  | [] => by simp [lookupStr]
  | (k', v) :: d => by
    have ih := @lookupStr_none_keys k d
    cases k' <;> simp only [lookupStr, List.map_cons, List.mem_cons, not_or, reduceCtorEq, not_false_eq_true, true_and, ih,
      Val.str.injEq]
    split
    · rename_i s hs; simp [hs]
    · rename_i s hs; simp only [ih]; exact ⟨fun h => ⟨fun h' => hs h'.symm, h⟩, fun h => h.2⟩

/-! ## packing lists and dicts -/

/-- Everything `pack` produces at depth `n` unpacks as specified. -/
def PackOk (E : SendEnv) (R : RecvEnv) (n : Nat) : Prop :=
  ∀ t v t' w, TableOk E t → Sendable R v → pack E n t v = (t', .ok w) →
    TableOk E t' ∧ t.le t' ∧ ∃ v', unpack R w = .ok v' ∧ Arrives E.tys (ByProxy E R t') v v'

theorem packL_ok {E R n} (hn : PackOk E R n) : ∀ (l : List Val) t t' ws, TableOk E t → SendableL R l →
    mapS (pack E n) t l = (t', .ok ws) →
    TableOk E t' ∧ t.le t' ∧ ∃ l', unpackL R ws = .ok l' ∧ ArrivesL E.tys (ByProxy E R t') l l'
  | [], t, t', ws, ht, _, h => by
    simp only [mapS, Prod.mk.injEq, Except.ok.injEq] at h
    obtain ⟨rfl, rfl⟩ := h
    exact ⟨ht, t.le_refl, [], rfl, by simp [ArrivesL]⟩
  | v :: vs, t, t', ws, ht, hs, h => by
    simp only [SendableL] at hs
    simp only [mapS] at h
    split at h
    · simp at h
    · rename_i t1 w hw
      split at h
      · simp at h
      · rename_i t2 ws' hws
        simp only [Prod.mk.injEq, Except.ok.injEq] at h
        obtain ⟨rfl, rfl⟩ := h
        obtain ⟨ht1, hle1, v', hu, hA⟩ := hn _ _ _ _ ht hs.1 hw
        obtain ⟨ht2, hle2, l', hu2, hA2⟩ := packL_ok hn vs _ _ _ ht1 hs.2 hws
        refine ⟨ht2, Refs.le_trans hle1 hle2, v' :: l', by simp [unpackL, hu, hu2], ?_⟩
        simp only [ArrivesL]
        exact ⟨v', l', rfl, Arrives.mono (fun _ _ => ByProxy.mono hle2) _ _ hA, hA2⟩

theorem pack_key {E : SendEnv} {R : RecvEnv} {n t k t' w} (hk : keyOk k = true) (h : pack E n t k = (t', .ok w)) :
    t' = t ∧ unpack R w = .ok k := by
  cases n with
  | zero => simp [pack] at h
  | succ n =>
    cases k <;> simp only [keyOk, Bool.false_eq_true] at hk
    all_goals
      simp only [pack, Prod.mk.injEq, Except.ok.injEq] at h
      obtain ⟨rfl, rfl⟩ := h
      exact ⟨rfl, rfl⟩

theorem packD_ok {E R n} (hn : PackOk E R n) : ∀ (d : List (Val × Val)) t t' m, TableOk E t →
    (∀ e ∈ d, keyOk e.1 = true) → SendableD R d →
    mapS (pairS (pack E n)) t d = (t', .ok m) →
    TableOk E t' ∧ t.le t' ∧ ∃ d', unpackM R m = .ok d' ∧ ArrivesD E.tys (ByProxy E R t') d d'
  | [], t, t', ws, ht, _, _, h => by
    simp only [mapS, Prod.mk.injEq, Except.ok.injEq] at h
    obtain ⟨rfl, rfl⟩ := h
    exact ⟨ht, t.le_refl, [], rfl, by simp [ArrivesD]⟩
  | (k, v) :: vs, t, t', ws, ht, hk, hs, h => by
    simp only [SendableD] at hs
    simp only [mapS] at h
    split at h
    · simp at h
    · rename_i t1 kw hw
      split at h
      · simp at h
      · rename_i t2 ws' hws
        simp only [Prod.mk.injEq, Except.ok.injEq] at h
        obtain ⟨rfl, rfl⟩ := h
        simp only [pairS] at hw
        split at hw
        · simp at hw
        · rename_i t0 kk hkk
          split at hw
          · simp at hw
          · rename_i t1' w hv
            simp only [Prod.mk.injEq, Except.ok.injEq] at hw
            obtain ⟨rfl, rfl⟩ := hw
            have hk0 : keyOk k = true := hk (k, v) (by simp)
            obtain ⟨rfl, hku⟩ := pack_key (R := R) hk0 hkk
            obtain ⟨ht1, hle1, v', hu, hA⟩ := hn _ _ _ _ ht hs.1 hv
            obtain ⟨ht2, hle2, l', hu2, hA2⟩ := packD_ok hn vs _ _ _ ht1 (fun e he => hk e (by simp [he])) hs.2 hws
            refine ⟨ht2, Refs.le_trans hle1 hle2, (k, v') :: l', by simp [unpackM, hku, hu, hu2, hk0], ?_⟩
            simp only [ArrivesD]
            exact ⟨v', l', rfl, Arrives.mono (fun _ _ => ByProxy.mono hle2) _ _ hA, hA2⟩

/-- A packed map unpacks to `decode` of the arrived items. -/
theorem packMap_ok {E R n} (hn : PackOk E R n) {d : List (Val × Val)} {t t' m} (ht : TableOk E t)
    (hk : ∀ e ∈ d, keyOk e.1 = true) (hp : d.Pairwise (fun a b => keyEq a.1 b.1 = false)) (hs : SendableD R d)
    (h : mapS (pairS (pack E n)) t d = (t', .ok m)) :
    TableOk E t' ∧ t.le t' ∧ ∃ d', unpack R (.map m) = decode R d' ∧ ArrivesD E.tys (ByProxy E R t') d d' := by
  obtain ⟨h1, h2, d', h3, h4⟩ := packD_ok hn d t t' m ht hk hs h
  refine ⟨h1, h2, d', ?_, h4⟩
  simp only [unpack, h3]
  rw [dictOf_eq (pairwise_keys (r := fun a b => keyEq a b = false) h4.keys hp)]


/-! ## the encoded forms -/

theorem arrivesL_int {tys P} : ∀ {l : List Nat} {l' : List Val},
    ArrivesL tys P (l.map fun (n : Nat) => Val.int n) l' → l' = l.map fun (n : Nat) => Val.int n
  | [], l', h => by simpa [ArrivesL] using h
  | n :: l, l', h => by
    simp only [List.map_cons, ArrivesL, Arrives] at h
    obtain ⟨v', vs', rfl, rfl, h3⟩ := h
    rw [arrivesL_int h3]; rfl

theorem arrivesL_str {tys P} : ∀ {l : List String} {l' : List Val},
    ArrivesL tys P (l.map Val.str) l' → l' = l.map Val.str
  | [], l', h => by simpa [ArrivesL] using h
  | n :: l, l', h => by
    simp only [List.map_cons, ArrivesL, Arrives] at h
    obtain ⟨v', vs', rfl, rfl, h3⟩ := h
    rw [arrivesL_str h3]; rfl

theorem sendableL_int {R} : ∀ l : List Nat, SendableL R (l.map fun (n : Nat) => Val.int n)
  | [] => by simp [SendableL]
  | n :: l => by simp only [List.map_cons, SendableL, Sendable, true_and]; exact sendableL_int l

theorem sendableL_str {R} : ∀ l : List String, SendableL R (l.map Val.str)
  | [] => by simp [SendableL]
  | n :: l => by simp only [List.map_cons, SendableL, Sendable, true_and]; exact sendableL_str l

theorem asInts_map : ∀ l : List Nat, asInts (l.map fun (n : Nat) => Val.int n) = some (l.map fun (n : Nat) => (n : Int))
  | [] => rfl
  | n :: l => by simp [asInts, asInts_map l]

/-- The array built from the bytes, the dtype and the shape of an array. -/
theorem buildArray_ok (a : NdArray) (h0 : a.dtype.itemsize ≠ 0) (ho : a.dtype.kind ≠ .object) (sv : Val)
    (hs : sv = .list (a.shape.map fun (n : Nat) => .int n) ∨ sv = .tuple (a.shape.map fun (n : Nat) => .int n)) :
    buildArray (.ok a.tobytes) (.ok a.dtype) (some sv) = .ok (.ndarray a.packed) := by
  have hf := frombuffer_reshape a h0 ho
  have h1 : ∀ n, sv.shapeOf n = some (a.shape.map fun (n : Nat) => (n : Int)) := by
    intro n; rcases hs with rfl | rfl <;> exact asInts_map _
  simp only [buildArray]
  rw [if_neg (by simp [h0, ho])]
  simp only [h1]
  split at hf
  · cases hf
  · rename_i b hb'
    simp only [hb', hf]

theorem asStrs_map : ∀ l : List String, asStrs (l.map Val.str) = some l
  | [] => rfl
  | n :: l => by simp [asStrs, asStrs_map l]

theorem decodeArray_ok {L : Lib} (hL : L.Laws) {R : RecvEnv} (hR : R.lib = L) (a : NdArray) (ha : a.dtype.sendable L) :
    decode R [(.str encodeKey, .str "ndarray"), (.str "data", .bytes a.tobytes),
         (.str "dtype", .str a.dtype.name), (.str "shape", .tuple (a.shape.map fun (n : Nat) => .int n))]
      = .ok (.ndarray a.packed) := by
  obtain ⟨hk, h0, ho, hb⟩ := ha
  have hdt : (if startsWithC '[' a.dtype.name then R.lib.dtypeExec a.dtype.name else R.lib.dtypeParse a.dtype.name)
      = .ok a.dtype := by
    rw [hR]
    split
    · rename_i h; exact hL.exec _ hk h
    · rename_i h; exact hL.parse _ hk h (by simp [hb])
  simp only [decode, lookupStr, encodeKey, removeStr, Val.text?, Val.core, Val.buffer, decodeArray, need, String.reduceEq, if_true, if_false]
  rw [hdt]
  exact buildArray_ok a h0 ho _ (.inr rfl)

theorem decodeProxy_ok (R : RecvEnv) (p : Proxy) :
    decode R ((.str encodeKey, .str "proxy") :: p.getstate) = received R p := by
  have hp : proxyOfDict p.getstate = .ok p := by
    simp [proxyOfDict, proxyAttrs, Proxy.getstate, keyNames, lookupStr, proxyParams, Val.asStr?, Val.asNat?, Val.items, asStrs_map]
  have : removeStr ((.str encodeKey, .str "proxy") :: p.getstate) encodeKey = p.getstate := by
    simp [removeStr, encodeKey, Proxy.getstate]
  simp only [decode, lookupStr, if_true, this, Val.text?, Val.core]
  simp only [decodeProxy, hp, received]
  rfl

theorem core_core : ∀ v : Val, v.core.core = v.core
  | .sub _ v => by simp only [Val.core]; exact core_core v
  | .none | .bool _ | .int _ | .float _ | .str _ | .bytes _ | .list _ | .tuple _ | .dict _ | .datetime _ | .date _
  | .ndarray _ | .npScalar _ | .dtype _ | .proxy _ | .obj _ _ => rfl

theorem core_ne_sub (c : Nat) (b : Val) : ∀ v : Val, v.core ≠ .sub c b
  | .sub _ v => by simp only [Val.core]; exact core_ne_sub c b v
  | .none | .bool _ | .int _ | .float _ | .str _ | .bytes _ | .list _ | .tuple _ | .dict _ | .datetime _ | .date _
  | .ndarray _ | .npScalar _ | .dtype _ | .proxy _ | .obj _ _ => by simp [Val.core]

/-- `encodeValue` of a value that is not a subclass instance. -/
theorem encodeValue_ok {L : Lib} (hL : L.Laws) {E : SendEnv} {R : RecvEnv} (hE : E.lib = L) (hR : R.lib = L) {n}
    (hn : PackOk E R n) {u : Val} {d t t' m} (hf : u.flattened = true) (hc : u.core = u) (ht : TableOk E t)
    (hs : Sendable R u) (hd : encodeValue L u = .ok d) (h : mapS (pairS (pack E n)) t d = (t', .ok m)) :
    TableOk E t' ∧ t.le t' ∧ ∃ v', unpack R (.map m) = .ok v' ∧ Arrives E.tys (ByProxy E R t') u v' := by
  cases u <;> simp only [Val.flattened, Val.core, Bool.false_eq_true] at hf
  case sub c b => exact absurd hc (core_ne_sub c b _)
  case none =>
    simp only [encodeValue, Val.core, Except.ok.injEq] at hd; subst hd
    obtain ⟨h1, h2, d', h3, h4⟩ := packMap_ok hn ht (by simp [keyOk]) (by simp) (by simp [SendableD, Sendable]) h
    refine ⟨h1, h2, .none, ?_, by simp [Arrives]⟩
    simp only [ArrivesD, Arrives] at h4
    obtain ⟨_, _, rfl, rfl, rfl⟩ := h4
    rw [h3]; rfl
  case tuple l =>
    simp only [encodeValue, Val.core, Except.ok.injEq] at hd; subst hd
    simp only [Sendable] at hs
    obtain ⟨h1, h2, d', h3, h4⟩ := packMap_ok hn ht (by simp [keyOk]) (by simp [keyEq, encodeKey])
      (by simp [SendableD, Sendable, hs]) h
    simp only [ArrivesD, Arrives] at h4
    obtain ⟨_, _, rfl, rfl, _, _, rfl, ⟨l', rfl, hl⟩, rfl⟩ := h4
    refine ⟨h1, h2, .tuple l', ?_, by simp only [Arrives]; exact ⟨l', rfl, hl⟩⟩
    rw [h3]; rfl
  case datetime x =>
    simp only [encodeValue, Val.core, Except.ok.injEq] at hd; subst hd
    simp only [Sendable] at hs
    obtain ⟨h1, h2, d', h3, h4⟩ := packMap_ok hn ht (by simp [keyOk]) (by simp [keyEq, encodeKey])
      (by simp [SendableD, Sendable]) h
    simp only [ArrivesD, Arrives] at h4
    obtain ⟨_, _, rfl, rfl, _, _, rfl, rfl, rfl⟩ := h4
    refine ⟨h1, h2, .datetime { x with tz := none, fold := false }, ?_, by simp only [Arrives]⟩
    rw [h3]
    have := parseDateTime_fmt (pad := L.padYear) (t := x) hs.1 (by rw [← hR]; exact hs.2)
    simp [decode, lookupStr, removeStr, encodeKey, Val.text?, Val.core, need, this]
  case date x =>
    simp only [encodeValue, Val.core, Except.ok.injEq] at hd; subst hd
    simp only [Sendable] at hs
    obtain ⟨h1, h2, d', h3, h4⟩ := packMap_ok hn ht (by simp [keyOk]) (by simp [keyEq, encodeKey])
      (by simp [SendableD, Sendable]) h
    simp only [ArrivesD, Arrives] at h4
    obtain ⟨_, _, rfl, rfl, _, _, rfl, rfl, rfl⟩ := h4
    refine ⟨h1, h2, .date x, ?_, by simp only [Arrives]⟩
    rw [h3]
    have := parseDate_fmt (pad := L.padYear) (d := x) hs.1 (by rw [← hR]; exact hs.2)
    simp [decode, lookupStr, removeStr, encodeKey, Val.text?, Val.core, need, this]
  case ndarray a =>
    simp only [encodeValue, Val.core, Except.ok.injEq] at hd
    have e : (if a.cContiguous then a else a.ascontiguous) = a.toSend := rfl
    simp only [e, toSend_tobytes, toSend_dtype, toSend_shape] at hd
    subst hd
    simp only [Sendable] at hs
    obtain ⟨h1, h2, d', h3, h4⟩ := packMap_ok hn ht (by simp [keyOk]) (by simp [keyEq, encodeKey])
      (by simp [SendableD, Sendable, sendableL_int]) h
    simp only [ArrivesD, Arrives] at h4
    obtain ⟨_, _, rfl, rfl, _, _, rfl, rfl, _, _, rfl, rfl, _, _, rfl, ⟨l', rfl, hl⟩, rfl⟩ := h4
    rw [arrivesL_int hl] at h3
    refine ⟨h1, h2, .ndarray a.packed, ?_, ?_⟩
    · rw [h3]; exact decodeArray_ok hL hR a (hR ▸ hs)
    · simp only [Arrives]
      exact ⟨_, rfl, ⟨rfl, rfl, fun idx hi => packed_elem a hi⟩, rfl⟩
  case npScalar s =>
    simp only [Sendable] at hs
    obtain ⟨hx, hkn⟩ := hs
    obtain ⟨dt, val⟩ := s
    have key : ∃ x, NpScalar.toPy L ⟨dt, val⟩ = .ok x ∧ npMake R.lib dt x = .ok (.npScalar ⟨dt, val⟩) ∧
        (dt.kind = .bool ∨ dt.kind = .integer ∨ dt.kind = .floating) ∧
        (∀ P v', Arrives E.tys P x v' → v' = x) ∧ Sendable R x := by
      unfold NpScalar.exact at hx
      cases hk : dt.kind <;> cases val <;> simp only [hk] at hx
      · rename_i b
        exact ⟨.bool b, by simp only [NpScalar.toPy, hk], by simp only [npMake, hk], by simp, by simp [Arrives], by simp [Sendable]⟩
      · rename_i b
        exact ⟨.int b, by simp only [NpScalar.toPy, hk], by simp only [npMake, hk], by simp, by simp [Arrives], by simp [Sendable]⟩
      · rename_i b
        exact ⟨.float b, by simp only [NpScalar.toPy, hk], by simp only [npMake, hk], by simp, by simp [Arrives], by simp [Sendable]⟩
    obtain ⟨x, hx1, hx2, hk, hxa, hxs⟩ := key
    have hd' : d = [(.str encodeKey, .str "np_number"), (.str "dtype", .dtype dt), (.str "value", x)] := by
      simp only [encodeValue, Val.core] at hd
      split at hd
      · rename_i h'; rw [h'] at hk; simp at hk
      · rename_i h'; rw [h'] at hk; simp at hk
      · rw [hx1] at hd; simpa using hd.symm
    subst hd'
    obtain ⟨h1, h2, d', h3, h4⟩ := packMap_ok hn ht (by simp [keyOk]) (by simp [keyEq, encodeKey])
      (by simp [SendableD, Sendable, hxs]) h
    simp only [ArrivesD, Arrives] at h4
    obtain ⟨_, _, rfl, rfl, _, _, rfl, rfl, x', _, rfl, hax, rfl⟩ := h4
    obtain rfl := hxa _ _ hax
    refine ⟨h1, h2, .npScalar ⟨dt, val⟩, ?_, by simp only [Arrives]⟩
    rw [h3]
    simp only [decode, lookupStr, removeStr, encodeKey, Val.text?, Val.core, need, String.reduceEq, if_true, if_false, hx2]
  case proxy p =>
    simp only [encodeValue, Val.core, Except.ok.injEq] at hd; subst hd
    simp only [Sendable] at hs
    obtain ⟨v, hv⟩ := hs
    obtain ⟨h1, h2, d', h3, h4⟩ := packMap_ok hn ht (by simp [keyOk, Proxy.getstate])
      (by simp [keyEq, encodeKey, Proxy.getstate]) (by simp [SendableD, Sendable, Proxy.getstate, sendableL_str]) h
    simp only [ArrivesD, Arrives, Proxy.getstate] at h4
    obtain ⟨_, _, rfl, rfl, _, _, rfl, rfl, _, _, rfl, rfl, _, _, rfl, rfl, _, _, rfl, rfl, _, _, rfl, ⟨l', rfl, hl⟩, rfl⟩ := h4
    rw [arrivesL_str hl] at h3
    refine ⟨h1, h2, v, ?_, by simp only [Arrives, ByProxy]; exact hv⟩
    rw [h3]
    have := decodeProxy_ok R p
    rw [hv] at this
    exact this


theorem types_core : ∀ (v : Val) (ty : Ty), ty ∈ v.core.types → ty ∈ v.types
  | .sub _ v, ty, h => by simp only [Val.core] at h; simp only [Val.types]; exact List.mem_cons_of_mem _ (types_core v ty h)
  | .none, _, h | .bool _, _, h | .int _, _, h | .float _, _, h | .str _, _, h | .bytes _, _, h | .list _, _, h
  | .tuple _, _, h | .dict _, _, h | .datetime _, _, h | .date _, _, h | .ndarray _, _, h | .npScalar _, _, h
  | .dtype _, _, h | .proxy _, _, h | .obj _ _, _, h => h

theorem isinstance_of {v : Val} {tys : List Ty} (ty : Ty) (h : ty ∈ v.core.types) (h' : ty ∈ tys) :
    v.isinstance tys = true := by
  simp only [Val.isinstance, List.any_eq_true]
  exact ⟨ty, types_core v ty h, by simpa using h'⟩

/-- The class that makes a non-object value an instance of the default types. -/
theorem isinstance_default {v : Val} {tys : List Ty} (hty : ∀ ty ∈ defaultTypes, ty ∈ tys)
    (h : match v.core with | .obj _ _ => False | .npScalar s => s.exact | _ => True) : v.isinstance tys = true := by
  have key : ∃ ty ∈ v.core.types, ty ∈ defaultTypes := by
    have hns := fun c b => core_ne_sub c b v
    generalize v.core = u at h hns
    cases u
    case obj => exact h.elim
    case sub c b => exact absurd rfl (hns c b)
    case npScalar s =>
      simp only [NpScalar.exact] at h
      split at h
      · rename_i hk _; exact ⟨.npBool, by simp [Val.types, hk], by decide⟩
      · rename_i hk _; exact ⟨.npNumber, by simp [Val.types, hk], by decide⟩
      · rename_i hk _; exact ⟨.npNumber, by simp only [Val.types, hk]; split <;> simp, by decide⟩
      · exact h.elim
    case ndarray a => exact ⟨.ndarray, by simp [Val.types], by decide⟩
    all_goals exact ⟨_, by simp only [Val.types]; exact List.mem_cons_self .., by decide⟩
  obtain ⟨ty, h1, h2⟩ := key
  exact isinstance_of ty h1 (hty ty h2)

/-- A flattened subclass instance behaves as its base value. -/
theorem flat_core {L : Lib} {R : RecvEnv} {tys : List Ty} : ∀ v : Val, v.flattened = true → Sendable R v →
    Sendable R v.core ∧ v.core.flattened = true ∧ (∀ P v', Arrives tys P v.core v' → Arrives tys P v v') ∧
    encodeValue L v = encodeValue L v.core
  | .sub c v, hf, hs => by
    have hf' : v.flattened = true := by simpa [Val.flattened, Val.core] using hf
    simp only [Sendable] at hs
    obtain ⟨h1, h2, h3, h4⟩ := flat_core (L := L) (tys := tys) v hf' (hs hf')
    refine ⟨h1, h2, ?_, ?_⟩
    · intro P v' hv
      simp only [Arrives, hf', if_true]
      exact h3 P v' hv
    · simp only [Val.core]
      have hc := core_core v
      simp only [Val.flattened] at hf'
      rw [show encodeValue L v.core = encodeValue L (.sub c v) from ?_]
      simp only [encodeValue, Val.core, hc]
      generalize v.core = u at h1 hf' hc
      cases u <;> simp only [Bool.false_eq_true] at hf' <;> try rfl
      rename_i s
      simp only [Sendable, NpScalar.exact] at h1
      obtain ⟨h1, -⟩ := h1
      split at h1
      · rename_i hk _; simp only [hk]
      · rename_i hk _; simp only [hk]
      · rename_i hk _; simp only [hk]
      · exact h1.elim
  | .none, hf, hs | .bool _, hf, hs | .int _, hf, hs | .float _, hf, hs | .str _, hf, hs | .bytes _, hf, hs
  | .list _, hf, hs | .tuple _, hf, hs | .dict _, hf, hs | .datetime _, hf, hs | .date _, hf, hs | .ndarray _, hf, hs
  | .npScalar _, hf, hs | .dtype _, hf, hs | .proxy _, hf, hs | .obj _ _, hf, hs =>
    ⟨hs, hf, fun _ _ h => h, rfl⟩

theorem pickled_ok {L : Lib} (hL : L.Laws) {E : SendEnv} {R : RecvEnv} (hR : R.lib = L) {n} (hn : PackOk E R n)
    {u : Val} {b : Bytes} {t t' m} (ht : TableOk E t) (hb : L.pickleDumps u = .ok b)
    (h : mapS (pairS (pack E n)) t [(.str encodeKey, .str "pickle"), (.str "pickle_str", .bytes b)] = (t', .ok m)) :
    TableOk E t' ∧ t.le t' ∧ unpack R (.map m) = .ok u := by
  obtain ⟨h1, h2, d', h3, h4⟩ := packMap_ok hn ht (by simp [keyOk]) (by simp [keyEq, encodeKey])
    (by simp [SendableD, Sendable]) h
  simp only [ArrivesD, Arrives] at h4
  obtain ⟨_, _, rfl, rfl, _, _, rfl, rfl, rfl⟩ := h4
  refine ⟨h1, h2, ?_⟩
  rw [h3]
  have := hL.pickle _ _ hb
  simp only [decode, lookupStr, removeStr, encodeKey, Val.text?, Val.core, need, String.reduceEq, if_true, if_false, hR, this]

/-- The values that are pickled when they are instances of a serialize type. -/
theorem encodeValue_pickle {L : Lib} {v : Val} {d} (hf : v.flattened = false) (h : encodeValue L v = .ok d) :
    ∃ b, L.pickleDumps v = .ok b ∧ d = [(.str encodeKey, .str "pickle"), (.str "pickle_str", .bytes b)] := by
  have hns := fun c b => core_ne_sub c b v
  unfold encodeValue at h
  simp only [Val.flattened] at hf
  generalize v.core = u at h hf hns
  cases u <;> simp only [Bool.true_eq_false] at hf
  all_goals first
    | exact absurd rfl (hns _ _)
    | (simp only at h
       split at h
       · rename_i b hb; exact ⟨b, hb, by simpa using h.symm⟩
       · simp at h)

theorem received_foreign {E : SendEnv} {R : RecvEnv} (h : NotOwner E R) {p : Proxy} (hp : E.server = some p.addr) :
    received R p = .ok (.proxy p) := by
  unfold received
  split
  · rename_i addr unwrap hs
    split
    · rename_i he; exact absurd (he ▸ hp) (h _ _ hs)
    · rfl
  · rfl

/-- The `default` hook on a value, followed by packing the resulting dict. -/
theorem viaDefault_ok {L : Lib} (hL : L.Laws) {E : SendEnv} {R : RecvEnv} (hE : E.lib = L) (hR : R.lib = L)
    (hty : ∀ ty ∈ defaultTypes, ty ∈ E.tys) (hno : NotOwner E R) {n} (hn : PackOk E R n) {v : Val} {t t1 t' d m}
    (ht : TableOk E t) (hs : Sendable R v) (hd : encode E t v = (t1, .ok d))
    (h : mapS (pairS (pack E n)) t1 d = (t', .ok m)) :
    TableOk E t' ∧ t.le t' ∧ ∃ v', unpack R (.map m) = .ok v' ∧
      (if v.isinstance E.tys then (if v.flattened then Arrives E.tys (ByProxy E R t') v v' else v' = v)
       else ∃ p, v' = .proxy p ∧ E.server = some p.addr ∧ t'.lookup p.oid = .ok (E.ident v) ∧ p.attrs = [] ∧
          p.typeStr = E.typeStr v) := by
  unfold encode at hd
  split at hd
  · rename_i hi
    simp only [Prod.mk.injEq] at hd
    obtain ⟨rfl, hd⟩ := hd
    rw [hE] at hd
    by_cases hf : v.flattened = true
    · obtain ⟨h1, h2, h3, h4⟩ := flat_core (L := L) (tys := E.tys) v hf hs
      rw [h4] at hd
      obtain ⟨a, b, v', c, e⟩ := encodeValue_ok hL hE hR hn h2 (core_core v) ht h1 hd h
      exact ⟨a, b, v', c, by simp only [hi, hf, if_true]; exact h3 _ _ e⟩
    · have hf' : v.flattened = false := by simpa using hf
      obtain ⟨b, hb, rfl⟩ := encodeValue_pickle hf' hd
      obtain ⟨a, b, c⟩ := pickled_ok hL hR hn ht hb h
      exact ⟨a, b, v, c, by simp [hi, hf']⟩
  · rename_i hi
    split at hd
    · simp at hd
    · rename_i addr hserver
      obtain ⟨t2, oid, rid, hg, ht2, hle, hlk⟩ := getProxy_ok ht v
      rw [hg] at hd
      simp only [Prod.mk.injEq] at hd
      obtain ⟨rfl, hd⟩ := hd
      rw [hE] at hd
      have hrec : received R ⟨addr, oid, rid, E.typeStr v, []⟩ = .ok (.proxy ⟨addr, oid, rid, E.typeStr v, []⟩) :=
        received_foreign hno (by simpa using hserver)
      obtain ⟨a, b, v', c, e⟩ := encodeValue_ok hL hE hR hn (u := .proxy ⟨addr, oid, rid, E.typeStr v, []⟩)
        rfl rfl ht2 (by simp only [Sendable]; exact ⟨_, hrec⟩) hd h
      refine ⟨a, Refs.le_trans hle b, v', c, ?_⟩
      simp only [Arrives, ByProxy, hrec, Except.ok.injEq] at e
      rw [if_neg hi]
      exact ⟨_, e.symm, hserver, b _ _ hlk, rfl, rfl⟩

theorem packOk {L : Lib} (hL : L.Laws) {E : SendEnv} {R : RecvEnv} (hE : E.lib = L) (hR : R.lib = L)
    (hty : ∀ ty ∈ defaultTypes, ty ∈ E.tys) (hno : NotOwner E R) : ∀ n, PackOk E R n := by
  intro n
  induction n with
  | zero => intro t v t' w _ _ h; simp [pack] at h
  | succ n ih =>
    intro t v t' w ht hs h
    have hdef : ∀ {v : Val}, Sendable R v → (match encode E t v with
        | (t1, .ok d) => (match mapS (pairS (pack E n)) t1 d with
            | (t', .ok m) => (t', Except.ok (Wire.map m))
            | (t', .error e) => (t', .error e))
        | (t1, .error e) => (t1, .error e)) = (t', .ok w) →
        TableOk E t' ∧ t.le t' ∧ ∃ v', unpack R w = .ok v' ∧
          (if v.isinstance E.tys then (if v.flattened then Arrives E.tys (ByProxy E R t') v v' else v' = v)
           else ∃ p, v' = .proxy p ∧ E.server = some p.addr ∧ t'.lookup p.oid = .ok (E.ident v) ∧ p.attrs = [] ∧
              p.typeStr = E.typeStr v) := by
      intro v hs h
      split at h
      · rename_i t1 d hd
        split at h
        · rename_i t2 m hm
          simp only [Prod.mk.injEq, Except.ok.injEq] at h
          obtain ⟨rfl, rfl⟩ := h
          exact viaDefault_ok hL hE hR hty hno ih ht hs hd hm
        · simp at h
      · simp at h
    have inst : ∀ {v : Val}, (match v.core with | .obj _ _ => False | .npScalar s => s.exact | _ => True) →
        v.isinstance E.tys = true := isinstance_default hty
    cases v
    case none => simp only [pack, Prod.mk.injEq, Except.ok.injEq] at h; obtain ⟨rfl, rfl⟩ := h
                 exact ⟨ht, t.le_refl, _, rfl, by simp [Arrives]⟩
    case bool => simp only [pack, Prod.mk.injEq, Except.ok.injEq] at h; obtain ⟨rfl, rfl⟩ := h
                 exact ⟨ht, t.le_refl, _, rfl, by simp [Arrives]⟩
    case float => simp only [pack, Prod.mk.injEq, Except.ok.injEq] at h; obtain ⟨rfl, rfl⟩ := h
                  exact ⟨ht, t.le_refl, _, rfl, by simp [Arrives]⟩
    case str => simp only [pack, Prod.mk.injEq, Except.ok.injEq] at h; obtain ⟨rfl, rfl⟩ := h
                exact ⟨ht, t.le_refl, _, rfl, by simp [Arrives]⟩
    case bytes => simp only [pack, Prod.mk.injEq, Except.ok.injEq] at h; obtain ⟨rfl, rfl⟩ := h
                  exact ⟨ht, t.le_refl, _, rfl, by simp [Arrives]⟩
    case int i =>
      simp only [pack] at h
      split at h
      · simp only [Prod.mk.injEq, Except.ok.injEq] at h; obtain ⟨rfl, rfl⟩ := h
        exact ⟨ht, t.le_refl, _, rfl, by simp [Arrives]⟩
      · obtain ⟨a, b, v', c, e⟩ := hdef hs h
        rw [if_pos (inst (by simp [Val.core])), if_neg (by simp [Val.flattened, Val.core])] at e
        exact ⟨a, b, v', c, by simpa only [Arrives] using e⟩
    case list l =>
      simp only [pack] at h
      split at h
      · rename_i t1 ws hw
        simp only [Prod.mk.injEq, Except.ok.injEq] at h; obtain ⟨rfl, rfl⟩ := h
        obtain ⟨a, b, l', c, e⟩ := packL_ok ih l _ _ _ ht (by simpa only [Sendable] using hs) hw
        exact ⟨a, b, .list l', by simp [unpack, c], by simp only [Arrives]; exact ⟨l', rfl, e⟩⟩
      · simp at h
    case dict d =>
      simp only [pack] at h
      split at h
      · rename_i t1 ws hw
        simp only [Prod.mk.injEq, Except.ok.injEq] at h; obtain ⟨rfl, rfl⟩ := h
        simp only [Sendable, KeysOk] at hs
        obtain ⟨a, b, d', c, e⟩ := packMap_ok ih ht hs.1.1 hs.1.2.1 hs.2 hw
        refine ⟨a, b, .dict d', ?_, by simp only [Arrives]; exact ⟨d', rfl, e⟩⟩
        have : lookupStr d' encodeKey = none := by
          rw [lookupStr_none_keys, e.keys, ← lookupStr_none_keys]; exact hs.1.2.2
        rw [c, decode, this]
      · simp at h
    case tuple =>
      simp only [pack] at h
      obtain ⟨a, b, v', c, e⟩ := hdef hs h
      rw [if_pos (inst (by simp [Val.core])), if_pos (by simp [Val.flattened, Val.core])] at e
      exact ⟨a, b, v', c, e⟩
    case datetime =>
      simp only [pack] at h
      obtain ⟨a, b, v', c, e⟩ := hdef hs h
      rw [if_pos (inst (by simp [Val.core])), if_pos (by simp [Val.flattened, Val.core])] at e
      exact ⟨a, b, v', c, e⟩
    case date =>
      simp only [pack] at h
      obtain ⟨a, b, v', c, e⟩ := hdef hs h
      rw [if_pos (inst (by simp [Val.core])), if_pos (by simp [Val.flattened, Val.core])] at e
      exact ⟨a, b, v', c, e⟩
    case ndarray =>
      simp only [pack] at h
      obtain ⟨a, b, v', c, e⟩ := hdef hs h
      rw [if_pos (inst (by simp [Val.core])), if_pos (by simp [Val.flattened, Val.core])] at e
      exact ⟨a, b, v', c, e⟩
    case proxy =>
      simp only [pack] at h
      obtain ⟨a, b, v', c, e⟩ := hdef hs h
      rw [if_pos (inst (by simp [Val.core])), if_pos (by simp [Val.flattened, Val.core])] at e
      exact ⟨a, b, v', c, e⟩
    case npScalar =>
      simp only [pack] at h
      obtain ⟨a, b, v', c, e⟩ := hdef hs h
      rw [if_pos (inst (by simp only [Sendable] at hs; simp only [Val.core]; exact hs.1)), if_pos (by simp [Val.flattened, Val.core])] at e
      exact ⟨a, b, v', c, e⟩
    case dtype =>
      simp only [pack] at h
      obtain ⟨a, b, v', c, e⟩ := hdef hs h
      rw [if_pos (inst (by simp [Val.core])), if_neg (by simp [Val.flattened, Val.core])] at e
      exact ⟨a, b, v', c, by simpa only [Arrives] using e⟩
    case obj o ts =>
      simp only [pack] at h
      obtain ⟨a, b, v', c, e⟩ := hdef hs h
      refine ⟨a, b, v', c, ?_⟩
      simp only [Arrives]
      split
      · rename_i hi
        rw [if_pos hi, if_neg (by simp [Val.flattened, Val.core])] at e
        exact e
      · rename_i hi
        rw [if_neg hi] at e
        exact e
    case sub k u =>
      simp only [pack] at h
      obtain ⟨a, b, v', c, e⟩ := hdef hs h
      refine ⟨a, b, v', c, ?_⟩
      by_cases hf : u.flattened = true
      · have hf' : (Val.sub k u).flattened = true := by simpa [Val.flattened, Val.core] using hf
        have hi : (Val.sub k u).isinstance E.tys = true := by
          refine inst ?_
          obtain ⟨h1, h2, -, -⟩ := flat_core (L := L) (tys := E.tys) _ hf' hs
          revert h1 h2
          simp only [Val.flattened, core_core]
          cases (Val.sub k u).core <;> simp +contextual [Sendable]
        rw [if_pos hi, if_pos hf'] at e
        exact e
      · have hf' : (Val.sub k u).flattened ≠ true := by simpa [Val.flattened, Val.core] using hf
        simp only [Arrives]
        rw [if_neg hf]
        split
        · rename_i hi; rw [if_pos hi, if_neg hf'] at e; exact e
        · rename_i hi; rw [if_neg hi] at e; exact e

end Verif
