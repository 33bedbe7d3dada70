import Verif.Proof.Asks
import Verif.Proof.ServerReply
import Verif.Spec.SerializeTypes
/-! # Lemmas about arbitrary lists of serialize types -/
namespace Verif

theorem Wrapped.mono {E t t'} (h : t.le t') {v v'} (hw : Wrapped E t v v') : Wrapped E t' v v' := by
  obtain ⟨p, h1, h2, h3, h4⟩ := hw
  exact ⟨p, h1, h2, h _ _ h3, h4⟩

mutual
theorem Selected.mono {E R t t'} (h : t.le t') : ∀ v v', Selected E R t v v' → Selected E R t' v v'
  | .list l, v', hv => by
    simp only [Selected] at hv ⊢
    obtain ⟨l', h1, h2⟩ := hv
    exact ⟨l', h1, SelectedL.mono h l l' h2⟩
  | .dict l, v', hv => by
    simp only [Selected] at hv ⊢
    obtain ⟨l', h1, h2⟩ := hv
    exact ⟨l', h1, SelectedD.mono h l l' h2⟩
  | .tuple l, v', hv => by
    simp only [Selected] at hv ⊢
    split at hv
    · rename_i hi; rw [if_pos hi]
      obtain ⟨l', h1, h2⟩ := hv
      exact ⟨l', h1, SelectedL.mono h l l' h2⟩
    · rename_i hi; rw [if_neg hi]; exact hv.mono h
  | .sub c v, v', hv => by
    simp only [Selected] at hv ⊢
    split at hv
    · rename_i hi; rw [if_pos hi]
      split at hv
      · rename_i hf; rw [if_pos hf]; exact AsBase.mono h v v' hv
      · rename_i hf; rw [if_neg hf]; exact hv
    · rename_i hi; rw [if_neg hi]; exact hv.mono h
  | .int i, v', hv => by
    simp only [Selected] at hv ⊢
    split at hv
    · rename_i hi; rw [if_pos hi]; exact hv
    · rename_i hi; rw [if_neg hi]; exact hv.mono h
  | .none, v', hv | .bool _, v', hv | .float _, v', hv | .str _, v', hv | .bytes _, v', hv => by
    simpa only [Selected] using hv
  | .datetime _, v', hv | .date _, v', hv | .ndarray _, v', hv | .npScalar _, v', hv | .dtype _, v', hv | .proxy _, v', hv
  | .obj _ _, v', hv => by
    simp only [Selected] at hv ⊢
    split at hv
    · rename_i hi; rw [if_pos hi]; exact hv
    · rename_i hi; rw [if_neg hi]; exact hv.mono h
theorem AsBase.mono {E R t t'} (h : t.le t') : ∀ v v', AsBase E R t v v' → AsBase E R t' v v'
  | .tuple l, v', hv => by
    simp only [AsBase] at hv ⊢
    obtain ⟨l', h1, h2⟩ := hv
    exact ⟨l', h1, SelectedL.mono h l l' h2⟩
  | .sub c v, v', hv => by
    simp only [AsBase] at hv ⊢
    exact AsBase.mono h v v' hv
  | .none, v', hv | .bool _, v', hv | .float _, v', hv | .str _, v', hv | .bytes _, v', hv | .int _, v', hv | .list _, v', hv
  | .dict _, v', hv | .datetime _, v', hv | .date _, v', hv | .ndarray _, v', hv | .npScalar _, v', hv | .dtype _, v', hv
  | .proxy _, v', hv | .obj _ _, v', hv => by
    simpa only [AsBase] using hv
theorem SelectedL.mono {E R t t'} (h : t.le t') : ∀ l l', SelectedL E R t l l' → SelectedL E R t' l l'
  | [], l', hl => by simpa only [SelectedL] using hl
  | v :: vs, l', hl => by
    simp only [SelectedL] at hl ⊢
    obtain ⟨v', vs', h1, h2, h3⟩ := hl
    exact ⟨v', vs', h1, Selected.mono h v v' h2, SelectedL.mono h vs vs' h3⟩
theorem SelectedD.mono {E R t t'} (h : t.le t') : ∀ l l', SelectedD E R t l l' → SelectedD E R t' l l'
  | [], l', hl => by simpa only [SelectedD] using hl
  | (k, v) :: vs, l', hl => by
    simp only [SelectedD] at hl ⊢
    obtain ⟨v', vs', h1, h2, h3⟩ := hl
    exact ⟨v', vs', h1, Selected.mono h v v' h2, SelectedD.mono h vs vs' h3⟩
end

theorem SelectedD.keys {E R t} : ∀ {d d' : List (Val × Val)}, SelectedD E R t d d' → d'.map (·.1) = d.map (·.1)
  | [], d', h => by simp only [SelectedD] at h; subst h; rfl
  | (k, v) :: d, d', h => by
    simp only [SelectedD] at h
    obtain ⟨v', vs', rfl, -, h3⟩ := h
    simp [SelectedD.keys h3]

/-- Everything `pack` produces at depth `n` unpacks as the serialize types say. -/
def SelOk (E : SendEnv) (R : RecvEnv) (n : Nat) : Prop :=
  ∀ t v t' w, TableOk E t → Sendable R v → pack E n t v = (t', .ok w) →
    TableOk E t' ∧ t.le t' ∧ ∃ v', unpack R w = .ok v' ∧ Selected E R t' v v'

theorem selL_ok {E R n} (hn : SelOk E R n) : ∀ (l : List Val) t t' ws, TableOk E t → SendableL R l →
    mapS (pack E n) t l = (t', .ok ws) →
    TableOk E t' ∧ t.le t' ∧ ∃ l', unpackL R ws = .ok l' ∧ SelectedL E R t' l l'
  | [], t, t', ws, ht, _, h => by
    simp only [mapS, Prod.mk.injEq, Except.ok.injEq] at h
    obtain ⟨rfl, rfl⟩ := h
    exact ⟨ht, t.le_refl, [], rfl, by simp [SelectedL]⟩
  | v :: vs, t, t', ws, ht, hs, h => by
    simp only [SendableL] at hs
    simp only [mapS] at h
    split at h
    · simp at h
    · rename_i t1 w hw
      split at h
      · simp at h
      · rename_i t2 ws' hws
        simp only [Prod.mk.injEq, Except.ok.injEq] at h
        obtain ⟨rfl, rfl⟩ := h
        obtain ⟨ht1, hle1, v', hu, hA⟩ := hn _ _ _ _ ht hs.1 hw
        obtain ⟨ht2, hle2, l', hu2, hA2⟩ := selL_ok hn vs _ _ _ ht1 hs.2 hws
        refine ⟨ht2, Refs.le_trans hle1 hle2, v' :: l', by simp [unpackL, hu, hu2], ?_⟩
        simp only [SelectedL]
        exact ⟨v', l', rfl, Selected.mono hle2 _ _ hA, hA2⟩


theorem selD_ok {E R n} (hn : SelOk E R n) : ∀ (d : List (Val × Val)) t t' m, TableOk E t →
    (∀ e ∈ d, keyOk e.1 = true) → SendableD R d →
    mapS (pairS (pack E n)) t d = (t', .ok m) →
    TableOk E t' ∧ t.le t' ∧ ∃ d', unpackM R m = .ok d' ∧ SelectedD E R t' d d'
  | [], t, t', ws, ht, _, _, h => by
    simp only [mapS, Prod.mk.injEq, Except.ok.injEq] at h
    obtain ⟨rfl, rfl⟩ := h
    exact ⟨ht, t.le_refl, [], rfl, by simp [SelectedD]⟩
  | (k, v) :: vs, t, t', ws, ht, hk, hs, h => by
    simp only [SendableD] at hs
    simp only [mapS] at h
    split at h
    · simp at h
    · rename_i t1 kw hw
      split at h
      · simp at h
      · rename_i t2 ws' hws
        simp only [Prod.mk.injEq, Except.ok.injEq] at h
        obtain ⟨rfl, rfl⟩ := h
        simp only [pairS] at hw
        split at hw
        · simp at hw
        · rename_i t0 kk hkk
          split at hw
          · simp at hw
          · rename_i t1' w hv
            simp only [Prod.mk.injEq, Except.ok.injEq] at hw
            obtain ⟨rfl, rfl⟩ := hw
            have hk0 : keyOk k = true := hk (k, v) (by simp)
            obtain ⟨rfl, hku⟩ := pack_key (R := R) hk0 hkk
            obtain ⟨ht1, hle1, v', hu, hA⟩ := hn _ _ _ _ ht hs.1 hv
            obtain ⟨ht2, hle2, l', hu2, hA2⟩ := selD_ok hn vs _ _ _ ht1 (fun e he => hk e (by simp [he])) hs.2 hws
            refine ⟨ht2, Refs.le_trans hle1 hle2, (k, v') :: l', by simp [unpackM, hku, hu, hu2, hk0], ?_⟩
            simp only [SelectedD]
            exact ⟨v', l', rfl, Selected.mono hle2 _ _ hA, hA2⟩


theorem selMap_ok {E R n} (hn : SelOk E R n) {d : List (Val × Val)} {t t' m} (ht : TableOk E t)
    (hk : ∀ e ∈ d, keyOk e.1 = true) (hp : d.Pairwise (fun a b => keyEq a.1 b.1 = false)) (hs : SendableD R d)
    (h : mapS (pairS (pack E n)) t d = (t', .ok m)) :
    TableOk E t' ∧ t.le t' ∧ ∃ d', unpack R (.map m) = decode R d' ∧ SelectedD E R t' d d' := by
  obtain ⟨h1, h2, d', h3, h4⟩ := selD_ok hn d t t' m ht hk hs h
  refine ⟨h1, h2, d', ?_, h4⟩
  simp only [unpack, h3]
  rw [dictOf_eq (pairwise_keys (r := fun a b => keyEq a b = false) h4.keys hp)]


theorem fit_int {tys : List Ty} (h : Fit tys) (i : Int) : (Val.int i).isinstance tys = true := isinstance_of .int (by simp [Val.core, Val.types]) h.int
theorem fit_tuple {tys : List Ty} (h : Fit tys) (l : List Val) : (Val.tuple l).isinstance tys = true := isinstance_of .tuple (by simp [Val.core, Val.types]) h.tuple
theorem fit_dtype {tys : List Ty} (h : Fit tys) (d : DType) : (Val.dtype d).isinstance tys = true := isinstance_of .npDtype (by simp [Val.core, Val.types]) h.dtype

theorem selectedL_int {E R t} (hty : Fit E.tys) : ∀ {l : List Nat} {l' : List Val},
    SelectedL E R t (l.map fun (n : Nat) => Val.int n) l' → l' = l.map fun (n : Nat) => Val.int n
  | [], l', h => by simpa [SelectedL] using h
  | n :: l, l', h => by
    simp only [List.map_cons, SelectedL, Selected, fit_int hty, or_true, if_true] at h
    obtain ⟨v', vs', rfl, rfl, h3⟩ := h
    rw [selectedL_int hty h3]; rfl

theorem selectedL_str {E R t} : ∀ {l : List String} {l' : List Val},
    SelectedL E R t (l.map Val.str) l' → l' = l.map Val.str
  | [], l', h => by simpa [SelectedL] using h
  | n :: l, l', h => by
    simp only [List.map_cons, SelectedL, Selected] at h
    obtain ⟨v', vs', rfl, rfl, h3⟩ := h
    rw [selectedL_str h3]; rfl

/-- What an instance of a subclass of a flattened kind is sent as. -/
theorem asBase_core {E R t} : ∀ (v v' : Val), AsBase E R t v.core v' → AsBase E R t v v'
  | .sub c v, v', h => by simp only [AsBase]; exact asBase_core v v' (by simpa only [Val.core] using h)
  | .none, _, h | .bool _, _, h | .float _, _, h | .str _, _, h | .bytes _, _, h | .int _, _, h | .list _, _, h | .tuple _, _, h
  | .dict _, _, h | .datetime _, _, h | .date _, _, h | .ndarray _, _, h | .npScalar _, _, h | .dtype _, _, h
  | .proxy _, _, h | .obj _ _, _, h => h

/-- `encodeValue` of a value that is not a subclass instance. -/
theorem encodeValue_sel {L : Lib} (hL : L.Laws) {E : SendEnv} {R : RecvEnv} (hE : E.lib = L) (hR : R.lib = L) {n}
    (hty : Fit E.tys) (hn : SelOk E R n) {u : Val} {d t t' m} (hf : u.flattened = true) (hc : u.core = u) (ht : TableOk E t)
    (hs : Sendable R u) (hd : encodeValue L u = .ok d) (h : mapS (pairS (pack E n)) t d = (t', .ok m)) :
    TableOk E t' ∧ t.le t' ∧ ∃ v', unpack R (.map m) = .ok v' ∧ AsBase E R t' u v' := by
  cases u <;> simp only [Val.flattened, Val.core, Bool.false_eq_true] at hf
  case sub c b => exact absurd hc (core_ne_sub c b _)
  case none =>
    simp only [encodeValue, Val.core, Except.ok.injEq] at hd; subst hd
    obtain ⟨h1, h2, d', h3, h4⟩ := selMap_ok hn ht (by simp [keyOk]) (by simp) (by simp [SendableD, Sendable]) h
    refine ⟨h1, h2, .none, ?_, by simp [AsBase, PlainSent]⟩
    simp only [SelectedD, Selected, fit_tuple hty, fit_dtype hty, fit_int hty, or_true, if_true, PlainSent] at h4
    obtain ⟨_, _, rfl, rfl, rfl⟩ := h4
    rw [h3]; rfl
  case tuple l =>
    simp only [encodeValue, Val.core, Except.ok.injEq] at hd; subst hd
    simp only [Sendable] at hs
    obtain ⟨h1, h2, d', h3, h4⟩ := selMap_ok hn ht (by simp [keyOk]) (by simp [keyEq, encodeKey])
      (by simp [SendableD, Sendable, hs]) h
    simp only [SelectedD, Selected, fit_tuple hty, fit_dtype hty, fit_int hty, or_true, if_true, PlainSent] at h4
    obtain ⟨_, _, rfl, rfl, _, _, rfl, ⟨l', rfl, hl⟩, rfl⟩ := h4
    refine ⟨h1, h2, .tuple l', ?_, by simp only [AsBase]; exact ⟨l', rfl, hl⟩⟩
    rw [h3]; rfl
  case datetime x =>
    simp only [encodeValue, Val.core, Except.ok.injEq] at hd; subst hd
    simp only [Sendable] at hs
    obtain ⟨h1, h2, d', h3, h4⟩ := selMap_ok hn ht (by simp [keyOk]) (by simp [keyEq, encodeKey])
      (by simp [SendableD, Sendable]) h
    simp only [SelectedD, Selected, fit_tuple hty, fit_dtype hty, fit_int hty, or_true, if_true, PlainSent] at h4
    obtain ⟨_, _, rfl, rfl, _, _, rfl, rfl, rfl⟩ := h4
    refine ⟨h1, h2, .datetime { x with tz := none, fold := false }, ?_, by simp only [AsBase, PlainSent]⟩
    rw [h3]
    have := parseDateTime_fmt (pad := L.padYear) (t := x) hs.1 (by rw [← hR]; exact hs.2)
    simp [decode, lookupStr, removeStr, encodeKey, Val.text?, Val.core, need, this]
  case date x =>
    simp only [encodeValue, Val.core, Except.ok.injEq] at hd; subst hd
    simp only [Sendable] at hs
    obtain ⟨h1, h2, d', h3, h4⟩ := selMap_ok hn ht (by simp [keyOk]) (by simp [keyEq, encodeKey])
      (by simp [SendableD, Sendable]) h
    simp only [SelectedD, Selected, fit_tuple hty, fit_dtype hty, fit_int hty, or_true, if_true, PlainSent] at h4
    obtain ⟨_, _, rfl, rfl, _, _, rfl, rfl, rfl⟩ := h4
    refine ⟨h1, h2, .date x, ?_, by simp only [AsBase, PlainSent]⟩
    rw [h3]
    have := parseDate_fmt (pad := L.padYear) (d := x) hs.1 (by rw [← hR]; exact hs.2)
    simp [decode, lookupStr, removeStr, encodeKey, Val.text?, Val.core, need, this]
  case ndarray a =>
    simp only [encodeValue, Val.core, Except.ok.injEq] at hd
    have e : (if a.cContiguous then a else a.ascontiguous) = a.toSend := rfl
    simp only [e, toSend_tobytes, toSend_dtype, toSend_shape] at hd
    subst hd
    simp only [Sendable] at hs
    obtain ⟨h1, h2, d', h3, h4⟩ := selMap_ok hn ht (by simp [keyOk]) (by simp [keyEq, encodeKey])
      (by simp [SendableD, Sendable, sendableL_int]) h
    simp only [SelectedD, Selected, fit_tuple hty, fit_dtype hty, fit_int hty, or_true, if_true, PlainSent] at h4
    obtain ⟨_, _, rfl, rfl, _, _, rfl, rfl, _, _, rfl, rfl, _, _, rfl, ⟨l', rfl, hl⟩, rfl⟩ := h4
    rw [selectedL_int hty hl] at h3
    refine ⟨h1, h2, .ndarray a.packed, ?_, ?_⟩
    · rw [h3]; exact decodeArray_ok hL hR a (hR ▸ hs)
    · simp only [AsBase, PlainSent]
      exact ⟨_, rfl, ⟨rfl, rfl, fun idx hi => packed_elem a hi⟩, rfl⟩
  case npScalar s =>
    simp only [Sendable] at hs
    obtain ⟨hx, hkn⟩ := hs
    obtain ⟨dt, val⟩ := s
    have key : ∃ x, NpScalar.toPy L ⟨dt, val⟩ = .ok x ∧ npMake R.lib dt x = .ok (.npScalar ⟨dt, val⟩) ∧
        (dt.kind = .bool ∨ dt.kind = .integer ∨ dt.kind = .floating) ∧
        (∀ t v', Selected E R t x v' → v' = x) ∧ Sendable R x := by
      unfold NpScalar.exact at hx
      cases hk : dt.kind <;> cases val <;> simp only [hk] at hx
      · rename_i b
        exact ⟨.bool b, by simp only [NpScalar.toPy, hk], by simp only [npMake, hk], by simp, by simp [Selected, fit_int hty], by simp [Sendable]⟩
      · rename_i b
        exact ⟨.int b, by simp only [NpScalar.toPy, hk], by simp only [npMake, hk], by simp, by simp [Selected, fit_int hty], by simp [Sendable]⟩
      · rename_i b
        exact ⟨.float b, by simp only [NpScalar.toPy, hk], by simp only [npMake, hk], by simp, by simp [Selected, fit_int hty], by simp [Sendable]⟩
    obtain ⟨x, hx1, hx2, hk, hxa, hxs⟩ := key
    have hd' : d = [(.str encodeKey, .str "np_number"), (.str "dtype", .dtype dt), (.str "value", x)] := by
      simp only [encodeValue, Val.core] at hd
      split at hd
      · rename_i h'; rw [h'] at hk; simp at hk
      · rename_i h'; rw [h'] at hk; simp at hk
      · rw [hx1] at hd; simpa using hd.symm
    subst hd'
    obtain ⟨h1, h2, d', h3, h4⟩ := selMap_ok hn ht (by simp [keyOk]) (by simp [keyEq, encodeKey])
      (by simp [SendableD, Sendable, hxs]) h
    simp only [SelectedD, Selected, fit_tuple hty, fit_dtype hty, fit_int hty, or_true, if_true, PlainSent] at h4
    obtain ⟨_, _, rfl, rfl, _, _, rfl, rfl, x', _, rfl, hax, rfl⟩ := h4
    obtain rfl := hxa _ _ hax
    refine ⟨h1, h2, .npScalar ⟨dt, val⟩, ?_, by simp only [AsBase, PlainSent]⟩
    rw [h3]
    simp only [decode, lookupStr, removeStr, encodeKey, Val.text?, Val.core, need, String.reduceEq, if_true, if_false, hx2]
  case proxy p =>
    simp only [encodeValue, Val.core, Except.ok.injEq] at hd; subst hd
    simp only [Sendable] at hs
    obtain ⟨v, hv⟩ := hs
    obtain ⟨h1, h2, d', h3, h4⟩ := selMap_ok hn ht (by simp [keyOk, Proxy.getstate])
      (by simp [keyEq, encodeKey, Proxy.getstate]) (by simp [SendableD, Sendable, Proxy.getstate, sendableL_str]) h
    simp only [SelectedD, Selected, Proxy.getstate, fit_tuple hty, fit_int hty, or_true, if_true] at h4
    obtain ⟨_, _, rfl, rfl, _, _, rfl, rfl, _, _, rfl, rfl, _, _, rfl, rfl, _, _, rfl, rfl, _, _, rfl, ⟨l', rfl, hl⟩, rfl⟩ := h4
    rw [selectedL_str hl] at h3
    refine ⟨h1, h2, v, ?_, by simp only [AsBase, PlainSent]; exact hv⟩
    rw [h3]
    have := decodeProxy_ok R p
    rw [hv] at this
    exact this



theorem pickled_sel {L : Lib} (hL : L.Laws) {E : SendEnv} {R : RecvEnv} (hR : R.lib = L) {n} (hn : SelOk E R n)
    {u : Val} {b : Bytes} {t t' m} (ht : TableOk E t) (hb : L.pickleDumps u = .ok b)
    (h : mapS (pairS (pack E n)) t [(.str encodeKey, .str "pickle"), (.str "pickle_str", .bytes b)] = (t', .ok m)) :
    TableOk E t' ∧ t.le t' ∧ unpack R (.map m) = .ok u := by
  obtain ⟨h1, h2, d', h3, h4⟩ := selMap_ok hn ht (by simp [keyOk]) (by simp [keyEq, encodeKey])
    (by simp [SendableD, Sendable]) h
  simp only [SelectedD, Selected] at h4
  obtain ⟨_, _, rfl, rfl, _, _, rfl, rfl, rfl⟩ := h4
  refine ⟨h1, h2, ?_⟩
  rw [h3]
  have := hL.pickle _ _ hb
  simp only [decode, lookupStr, removeStr, encodeKey, Val.text?, Val.core, need, String.reduceEq, if_true, if_false, hR, this]


/-- The `default` hook on a value, followed by packing the resulting dict. -/
theorem viaDefault_sel {L : Lib} (hL : L.Laws) {E : SendEnv} {R : RecvEnv} (hE : E.lib = L) (hR : R.lib = L)
    (hty : Fit E.tys) (hno : NotOwner E R) {n} (hn : SelOk E R n) {v : Val} {t t1 t' d m}
    (ht : TableOk E t) (hs : Sendable R v) (hd : encode E t v = (t1, .ok d))
    (h : mapS (pairS (pack E n)) t1 d = (t', .ok m)) :
    TableOk E t' ∧ t.le t' ∧ ∃ v', unpack R (.map m) = .ok v' ∧
      (if v.isinstance E.tys then (if v.flattened then AsBase E R t' v v' else v' = v) else Wrapped E t' v v') := by
  unfold encode at hd
  split at hd
  · rename_i hi
    simp only [Prod.mk.injEq] at hd
    obtain ⟨rfl, hd⟩ := hd
    rw [hE] at hd
    by_cases hf : v.flattened = true
    · obtain ⟨h1, h2, -, h4⟩ := flat_core (L := L) (tys := E.tys) v hf hs
      rw [h4] at hd
      obtain ⟨a, b, v', c, e⟩ := encodeValue_sel hL hE hR hty hn h2 (core_core v) ht h1 hd h
      exact ⟨a, b, v', c, by simp only [hi, hf, if_true]; exact asBase_core _ _ e⟩
    · have hf' : v.flattened = false := by simpa using hf
      obtain ⟨b, hb, rfl⟩ := encodeValue_pickle hf' hd
      obtain ⟨a, b, c⟩ := pickled_sel hL hR hn ht hb h
      exact ⟨a, b, v, c, by simp [hi, hf']⟩
  · rename_i hi
    split at hd
    · simp at hd
    · rename_i addr hserver
      obtain ⟨t2, oid, rid, hg, ht2, hle, hlk⟩ := getProxy_ok ht v
      rw [hg] at hd
      simp only [Prod.mk.injEq] at hd
      obtain ⟨rfl, hd⟩ := hd
      rw [hE] at hd
      have hrec : received R ⟨addr, oid, rid, E.typeStr v, []⟩ = .ok (.proxy ⟨addr, oid, rid, E.typeStr v, []⟩) :=
        received_foreign hno (by simpa using hserver)
      obtain ⟨a, b, v', c, e⟩ := encodeValue_sel hL hE hR hty hn (u := .proxy ⟨addr, oid, rid, E.typeStr v, []⟩)
        rfl rfl ht2 (by simp only [Sendable]; exact ⟨_, hrec⟩) hd h
      refine ⟨a, Refs.le_trans hle b, v', c, ?_⟩
      simp only [AsBase, PlainSent, hrec, Except.ok.injEq] at e
      rw [if_neg hi]
      exact ⟨_, e.symm, hserver, b _ _ hlk, rfl, rfl⟩


theorem packSel {L : Lib} (hL : L.Laws) {E : SendEnv} {R : RecvEnv} (hE : E.lib = L) (hR : R.lib = L)
    (hty : Fit E.tys) (hno : NotOwner E R) : ∀ n, SelOk E R n := by
  intro n
  induction n with
  | zero => intro t v t' w _ _ h; simp [pack] at h
  | succ n ih =>
    intro t v t' w ht hs h
    have hdef : ∀ {v : Val}, Sendable R v → (match encode E t v with
        | (t1, .ok d) => (match mapS (pairS (pack E n)) t1 d with
            | (t', .ok m) => (t', Except.ok (Wire.map m))
            | (t', .error e) => (t', .error e))
        | (t1, .error e) => (t1, .error e)) = (t', .ok w) →
        TableOk E t' ∧ t.le t' ∧ ∃ v', unpack R w = .ok v' ∧
          (if v.isinstance E.tys then (if v.flattened then AsBase E R t' v v' else v' = v) else Wrapped E t' v v') := by
      intro v hs h
      split at h
      · rename_i t1 d hd
        split at h
        · rename_i t2 m hm
          simp only [Prod.mk.injEq, Except.ok.injEq] at h
          obtain ⟨rfl, rfl⟩ := h
          exact viaDefault_sel hL hE hR hty hno ih ht hs hd hm
        · simp at h
      · simp at h
    cases v
    case none => simp only [pack, Prod.mk.injEq, Except.ok.injEq] at h; obtain ⟨rfl, rfl⟩ := h
                 exact ⟨ht, t.le_refl, _, rfl, by simp [Selected]⟩
    case bool => simp only [pack, Prod.mk.injEq, Except.ok.injEq] at h; obtain ⟨rfl, rfl⟩ := h
                 exact ⟨ht, t.le_refl, _, rfl, by simp [Selected]⟩
    case float => simp only [pack, Prod.mk.injEq, Except.ok.injEq] at h; obtain ⟨rfl, rfl⟩ := h
                  exact ⟨ht, t.le_refl, _, rfl, by simp [Selected]⟩
    case str => simp only [pack, Prod.mk.injEq, Except.ok.injEq] at h; obtain ⟨rfl, rfl⟩ := h
                exact ⟨ht, t.le_refl, _, rfl, by simp [Selected]⟩
    case bytes => simp only [pack, Prod.mk.injEq, Except.ok.injEq] at h; obtain ⟨rfl, rfl⟩ := h
                  exact ⟨ht, t.le_refl, _, rfl, by simp [Selected]⟩
    case int i =>
      simp only [pack] at h
      split at h
      · simp only [Prod.mk.injEq, Except.ok.injEq] at h; obtain ⟨rfl, rfl⟩ := h
        rename_i hr
        exact ⟨ht, t.le_refl, _, rfl, by simp only [Selected]; rw [if_pos (.inl hr)]; trivial⟩
      · obtain ⟨a, b, v', c, e⟩ := hdef hs h
        rw [if_pos (fit_int hty i), if_neg (by simp [Val.flattened, Val.core])] at e
        exact ⟨a, b, v', c, by simp only [Selected, fit_int hty, or_true, if_true]; exact e⟩
    case list l =>
      simp only [pack] at h
      split at h
      · rename_i t1 ws hw
        simp only [Prod.mk.injEq, Except.ok.injEq] at h; obtain ⟨rfl, rfl⟩ := h
        obtain ⟨a, b, l', c, e⟩ := selL_ok ih l _ _ _ ht (by simpa only [Sendable] using hs) hw
        exact ⟨a, b, .list l', by simp [unpack, c], by simp only [Selected]; exact ⟨l', rfl, e⟩⟩
      · simp at h
    case dict d =>
      simp only [pack] at h
      split at h
      · rename_i t1 ws hw
        simp only [Prod.mk.injEq, Except.ok.injEq] at h; obtain ⟨rfl, rfl⟩ := h
        simp only [Sendable, KeysOk] at hs
        obtain ⟨a, b, d', c, e⟩ := selMap_ok ih ht hs.1.1 hs.1.2.1 hs.2 hw
        refine ⟨a, b, .dict d', ?_, by simp only [Selected]; exact ⟨d', rfl, e⟩⟩
        have : lookupStr d' encodeKey = none := by
          rw [lookupStr_none_keys, e.keys, ← lookupStr_none_keys]; exact hs.1.2.2
        rw [c, decode, this]
      · simp at h
    case tuple =>
      simp only [pack] at h
      obtain ⟨a, b, v', c, e⟩ := hdef hs h
      refine ⟨a, b, v', c, ?_⟩
      simp only [Selected]
      split
      · rename_i hi
        rw [if_pos hi, if_pos (by simp [Val.flattened, Val.core])] at e
        simpa only [AsBase] using e
      · rename_i hi
        rw [if_neg hi] at e
        exact e
    case sub k u =>
      simp only [pack] at h
      obtain ⟨a, b, v', c, e⟩ := hdef hs h
      refine ⟨a, b, v', c, ?_⟩
      have hf : (Val.sub k u).flattened = u.flattened := by simp only [Val.flattened, Val.core]
      rw [hf] at e
      simp only [Selected]
      split
      · rename_i hi
        rw [if_pos hi] at e
        simpa only [AsBase] using e
      · rename_i hi
        rw [if_neg hi] at e
        exact e
    all_goals
      simp only [pack] at h
      obtain ⟨a, b, v', c, e⟩ := hdef hs h
      refine ⟨a, b, v', c, ?_⟩
      simp only [Selected]
      split
      · rename_i hi
        rw [if_pos hi] at e
        simp only [Val.flattened, Val.core, if_true, Bool.false_eq_true, if_false, AsBase] at e
        simpa only [PlainSent] using e
      · rename_i hi
        rw [if_neg hi] at e
        exact e

/-! ## Without tuples -/

/-- The function raises on this argument, whatever the table. -/
def Raises {α β : Type} (f : Refs → α → Refs × Except Exc β) (a : α) : Prop := ∀ t, Fails (f t a).2

theorem mapS_raises {α β : Type} {f : Refs → α → Refs × Except Exc β} {a : α} (h : Raises f a) :
    ∀ {l : List α}, a ∈ l → ∀ t, Fails (mapS f t l).2
  | b :: l, hm, t => by
    simp only [mapS]
    rcases hb : f t b with ⟨t1, e | r⟩
    · exact ⟨e, rfl⟩
    · rcases List.mem_cons.1 hm with rfl | hm
      · obtain ⟨e, he⟩ := h t
        rw [hb] at he; cases he
      · obtain ⟨e, he⟩ := mapS_raises h hm t1
        rcases hr : mapS f t1 l with ⟨t2, r2⟩
        rw [hr] at he
        simp only at he
        subst he
        exact ⟨e, by simp only [hr]⟩

theorem pairS_raises {β : Type} {f : Refs → Val → Refs × Except Exc β} {k v : Val} (h : Raises f v) : Raises (pairS f) (k, v) := by
  intro t
  simp only [pairS]
  rcases hb : f t k with ⟨t1, e | r⟩
  · exact ⟨e, rfl⟩
  · obtain ⟨e, he⟩ := h t1
    rcases hr : f t1 v with ⟨t2, r2⟩
    rw [hr] at he
    simp only at he
    subst he
    exact ⟨e, by simp only [hr]⟩

theorem noTuple_isinstance {tys : List Ty} (h : NoTuple tys) (l : List Val) : (Val.tuple l).isinstance tys = false := by
  simp [Val.isinstance, Val.types, h.1, h.2]

/-- Packing the dict a value is encoded as. -/
theorem pack_encoded {E : SendEnv} {n : Nat} {v : Val} (hv : ∀ t, pack E (n + 1) t v = (match encode E t v with
      | (t', .ok d) => (match mapS (pairS (pack E n)) t' d with
        | (t', .ok m) => (t', Except.ok (Wire.map m))
        | (t', .error e) => (t', .error e))
      | (t', .error e) => (t', .error e)))
    (h : ∀ t d, (encode E t v).2 = .ok d → ∃ kv ∈ d, Raises (pairS (pack E n)) kv) : Raises (pack E (n + 1)) v := by
  intro t
  rw [hv]
  rcases he : encode E t v with ⟨t1, e | d⟩
  · exact ⟨e, rfl⟩
  · obtain ⟨kv, hm, hr⟩ := h t d (by rw [he])
    obtain ⟨e, he⟩ := mapS_raises hr hm t1
    rcases hr : mapS (pairS (pack E n)) t1 d with ⟨t2, r2⟩
    rw [hr] at he
    simp only at he
    subst he
    exact ⟨e, by simp only [hr]⟩

/-- Something outside the serialize types is encoded as a proxy, whose state has a tuple. -/
theorem encode_outside {E : SendEnv} {t : Refs} {v : Val} {d} (hi : v.isinstance E.tys = false) (h : (encode E t v).2 = .ok d) :
    ∃ k, (k, Val.tuple []) ∈ d := by
  unfold encode at h
  rw [if_neg (by simp [hi])] at h
  split at h
  · cases h
  · split at h
    · simp only [encodeValue, Val.core, Proxy.getstate, Except.ok.injEq] at h
      subst h
      exact ⟨.str "attributes", by simp⟩
    · cases h

theorem pack_tuple_raises {E : SendEnv} (hE : NoTuple E.tys) : ∀ (n : Nat) (l : List Val), Raises (pack E n) (.tuple l)
  | 0, l => fun t => ⟨.valueError, by simp [pack]⟩
  | n + 1, l => by
    refine pack_encoded (fun t => rfl) fun t d h => ?_
    obtain ⟨k, hk⟩ := encode_outside (noTuple_isinstance hE l) h
    exact ⟨_, hk, pairS_raises (pack_tuple_raises hE n [])⟩

theorem pack_outside_raises {E : SendEnv} (hE : NoTuple E.tys) {v : Val} (hi : v.isinstance E.tys = false) {n : Nat}
    (hv : ∀ t, pack E (n + 1) t v = (match encode E t v with
      | (t', .ok d) => (match mapS (pairS (pack E n)) t' d with
        | (t', .ok m) => (t', Except.ok (Wire.map m))
        | (t', .error e) => (t', .error e))
      | (t', .error e) => (t', .error e))) : Raises (pack E (n + 1)) v :=
  pack_encoded hv fun t d h => by
    obtain ⟨k, hk⟩ := encode_outside hi h
    exact ⟨_, hk, pairS_raises (pack_tuple_raises hE n [])⟩

theorem pack_proxy_raises {E : SendEnv} (hE : NoTuple E.tys) (n : Nat) (p : Proxy) : Raises (pack E n) (.proxy p) := by
  cases n with
  | zero => exact fun t => ⟨.valueError, by simp [pack]⟩
  | succ n =>
    refine pack_encoded (fun t => rfl) fun t d h => ?_
    by_cases hi : (Val.proxy p).isinstance E.tys = true
    · simp only [encode, hi, if_true, encodeValue, Val.core, Except.ok.injEq] at h
      subst h
      exact ⟨(.str "attributes", .tuple (p.attrs.map .str)), by simp [Proxy.getstate], pairS_raises (pack_tuple_raises hE n _)⟩
    · obtain ⟨k, hk⟩ := encode_outside (by simpa using hi) h
      exact ⟨_, hk, pairS_raises (pack_tuple_raises hE n [])⟩

theorem pack_ndarray_raises {E : SendEnv} (hE : NoTuple E.tys) (n : Nat) (a : NdArray) : Raises (pack E n) (.ndarray a) := by
  cases n with
  | zero => exact fun t => ⟨.valueError, by simp [pack]⟩
  | succ n =>
    refine pack_encoded (fun t => rfl) fun t d h => ?_
    by_cases hi : (Val.ndarray a).isinstance E.tys = true
    · simp only [encode, hi, if_true, encodeValue, Val.core, Except.ok.injEq] at h
      subst h
      exact ⟨_, List.mem_cons_of_mem _ (List.mem_cons_of_mem _ (List.mem_cons_of_mem _ (List.mem_cons_self ..))),
        pairS_raises (pack_tuple_raises hE n _)⟩
    · obtain ⟨k, hk⟩ := encode_outside (by simpa using hi) h
      exact ⟨_, hk, pairS_raises (pack_tuple_raises hE n [])⟩

theorem needsTupleL_mem {tys : List Ty} : ∀ {l : List Val}, NeedsTupleL tys l → ∃ v ∈ l, NeedsTuple tys v
  | [], h => by simp only [NeedsTupleL] at h
  | v :: l, h => by
    simp only [NeedsTupleL] at h
    rcases h with h | h
    · exact ⟨v, by simp, h⟩
    · obtain ⟨w, h1, h2⟩ := needsTupleL_mem h
      exact ⟨w, by simp [h1], h2⟩

theorem needsTupleD_mem {tys : List Ty} : ∀ {l : List (Val × Val)}, NeedsTupleD tys l → ∃ kv ∈ l, NeedsTuple tys kv.2
  | [], h => by simp only [NeedsTupleD] at h
  | (k, v) :: l, h => by
    simp only [NeedsTupleD] at h
    rcases h with h | h
    · exact ⟨(k, v), by simp, h⟩
    · obtain ⟨w, h1, h2⟩ := needsTupleD_mem h
      exact ⟨w, by simp [h1], h2⟩

theorem pack_needsTuple {E : SendEnv} (hE : NoTuple E.tys) : ∀ (n : Nat) (v : Val), NeedsTuple E.tys v → Raises (pack E n) v
  | 0, v, _ => fun t => ⟨.valueError, by simp [pack]⟩
  | n + 1, v, h => by
    cases v
    case none => simp only [NeedsTuple] at h
    case bool => simp only [NeedsTuple] at h
    case int => simp only [NeedsTuple] at h
    case float => simp only [NeedsTuple] at h
    case str => simp only [NeedsTuple] at h
    case bytes => simp only [NeedsTuple] at h
    case list l =>
      simp only [NeedsTuple] at h
      obtain ⟨v, hm, hv⟩ := needsTupleL_mem h
      intro t
      obtain ⟨e, he⟩ := mapS_raises (pack_needsTuple hE n v hv) hm t
      rcases hr : mapS (pack E n) t l with ⟨t2, r2⟩
      rw [hr] at he
      simp only at he
      subst he
      exact ⟨e, by simp only [pack, hr]⟩
    case dict d =>
      simp only [NeedsTuple] at h
      obtain ⟨⟨k, v⟩, hm, hv⟩ := needsTupleD_mem h
      intro t
      obtain ⟨e, he⟩ := mapS_raises (pairS_raises (k := k) (pack_needsTuple hE n v hv)) hm t
      rcases hr : mapS (pairS (pack E n)) t d with ⟨t2, r2⟩
      rw [hr] at he
      simp only at he
      subst he
      exact ⟨e, by simp only [pack, hr]⟩
    case tuple l => exact pack_tuple_raises hE _ l
    case ndarray a => exact pack_ndarray_raises hE _ a
    case proxy p => exact pack_proxy_raises hE _ p
    all_goals exact pack_outside_raises hE (by simpa only [NeedsTuple] using h) (fun t => rfl)

/-! ## The server -/

theorem sendResult_raises {H : Heap} {s : Srv} {c : Bytes} (hc : s.clients.get? c = some "msgpack") (hE : NoTuple s.tys) (k : Int)
    {rv ev : Val} (h : NeedsTuple s.tys rv ∨ NeedsTuple s.tys ev) (bad : Bool) :
    ∃ t e, s.sendResult H c k rv ev bad = ({ s with refs := t }, .error e) := by
  have hn : NeedsTuple s.tys (replyDict k rv ev) := by
    simp only [replyDict, NeedsTuple, NeedsTupleD, false_or, or_false]
    exact h
  obtain ⟨e, he⟩ := pack_needsTuple (E := s.sendEnv H) hE msgpackDepth _ hn s.refs
  have hser : (s.clients.get? c).bind serOf = some .msgpack := by rw [hc]; rfl
  unfold Srv.sendResult
  split
  · exact ⟨s.refs, _, rfl⟩
  · rw [hser]
    simp only
    split
    · exact ⟨s.refs, _, rfl⟩
    · simp only [Ser.dumps, msgpackDumps]
      rcases hr : pack (s.sendEnv H) msgpackDepth s.refs (replyDict k rv ev) with ⟨t2, r2⟩
      rw [hr] at he
      simp only at he
      subst he
      exact ⟨t2, e, rfl⟩

theorem sendError_raises {H : Heap} {s : Srv} {c : Bytes} (hc : s.clients.get? c = some "msgpack") (hE : NoTuple s.tys) (k : Int) (x : Exc) :
    ∃ t e, s.sendError H c k x = ({ s with refs := t }, .error e) := by
  unfold Srv.sendError
  split
  · exact ⟨s.refs, _, rfl⟩
  · exact sendResult_raises hc hE k (.inr (by simp only [NeedsTuple])) _

/-! ## With tuples -/

theorem pack_fit_int {E : SendEnv} (hL : E.lib.Laws) (hE : Fit E.tys) (n : Nat) (t : Refs) (i : Int) :
    ∃ w, pack E (n + 1 + 1) t (.int i) = (t, .ok w) := by
  simp only [pack]
  split
  · exact ⟨_, rfl⟩
  · obtain ⟨b, hb⟩ := hL.pickleInt i
    have : encode E t (.int i) = (t, .ok [(.str encodeKey, .str "pickle"), (.str "pickle_str", .bytes b)]) := by
      simp only [encode, fit_int hE, if_true, encodeValue, Val.core, hb]
    rw [this]
    simp only [mapS, pairS, pack]
    exact ⟨_, rfl⟩

theorem pack_fit_tuple {E : SendEnv} (hE : Fit E.tys) (n : Nat) (t : Refs) :
    ∃ w, pack E (n + 2 + 1) t (.tuple []) = (t, .ok w) := by
  have h : encode E t (.tuple []) = (t, encodeValue E.lib (.tuple [])) := by
    simp only [encode, fit_tuple hE, if_true]
  refine ⟨.map [(.str encodeKey, .str "tuple"), (.str "data", .arr [])], ?_⟩
  rw [pack]
  · simp only [h, encodeValue, Val.core]
    rfl
  all_goals
    intros
    rename_i e
    cases e

theorem mapS_getstate {f : Refs → Val → Refs × Except Exc Wire} {t : Refs} {p : Proxy} {w w1 w2 : Wire}
    (ha : p.attrs = []) (h1 : f t (.int p.oid) = (t, .ok w1)) (h2 : f t (.int p.rid) = (t, .ok w2)) (h3 : f t (.tuple []) = (t, .ok w))
    (hs : ∀ s, f t (.str s) = (t, .ok (.str s))) :
    ∃ m, mapS (pairS f) t ((.str encodeKey, .str "proxy") :: p.getstate) = (t, .ok m) := by
  simp only [Proxy.getstate, ha, List.map_nil, mapS, pairS, hs, h1, h2, h3]
  exact ⟨_, rfl⟩

theorem encode_proxied {E : SendEnv} {v : Val} {addr : String} {oid rid : Nat} (hi : v.isinstance E.tys = false) (hs : E.server = some addr) {t t2 : Refs}
    (hg : t.getProxy E.idOf (E.ident v) [] = (t2, .ok (oid, rid))) :
    encode E t v = (t2, .ok ((.str encodeKey, .str "proxy") :: (⟨addr, oid, rid, E.typeStr v, []⟩ : Proxy).getstate)) := by
  unfold encode
  rw [if_neg (by simp [hi]), hs]
  simp only [hg, encodeValue, Val.core]

/-- Something outside the serialize types of a process with a server is packed as a proxy. -/
theorem pack_outside_ok {E : SendEnv} {v : Val} (hi : v.isinstance E.tys = false) {k : Nat}
    (hint : ∀ t i, ∃ w, pack E k t (.int i) = (t, .ok w)) (htup : ∀ t, ∃ w, pack E k t (.tuple []) = (t, .ok w))
    (hstr : ∀ t s, pack E k t (.str s) = (t, .ok (.str s)))
    (hs : E.server ≠ none) {t : Refs} (ht : TableOk E t)
    (hv : pack E (k + 1) t v = (match encode E t v with
      | (t', .ok d) => (match mapS (pairS (pack E k)) t' d with
        | (t', .ok m) => (t', Except.ok (Wire.map m))
        | (t', .error e) => (t', .error e))
      | (t', .error e) => (t', .error e))) : ∃ t' w, pack E (k + 1) t v = (t', .ok w) := by
  obtain ⟨addr, hs⟩ := Option.ne_none_iff_exists'.1 hs
  obtain ⟨t2, oid, rid, hg, -, -, -⟩ := getProxy_ok ht v
  obtain ⟨w, hw⟩ := htup t2
  obtain ⟨w1, hw1⟩ := hint t2 oid
  obtain ⟨w2, hw2⟩ := hint t2 rid
  obtain ⟨m, hm⟩ := mapS_getstate (p := ⟨addr, oid, rid, E.typeStr v, []⟩) rfl hw1 hw2 hw (hstr t2)
  refine ⟨t2, .map m, ?_⟩
  rw [hv, encode_proxied hi hs hg]
  simp only [hm]

theorem jpack_strs (E : SendEnv) (n : Nat) (t : Refs) : ∀ l : List String,
    mapS (jpack E (n + 1)) t (l.map Val.str) = (t, .ok (l.map Wire.str))
  | [] => rfl
  | s :: l => by
    have : jpack E (n + 1) t (.str s) = (t, .ok (.str s)) := rfl
    simp only [List.map_cons, mapS, this, jpack_strs E n t l]

end Verif
