import Verif.Proof.SerializerTotal
import Verif.Model.Unwrap
/-! # Further lemmas about the msgpack serializer: table, bad keys, reserved key, round trips -/
namespace Verif

theorem encode_table {E : SendEnv} {t : Refs} (ht : TableOk E t) (v : Val) :
    TableOk E (encode E t v).1 ∧ t.le (encode E t v).1 := by
  unfold encode
  split
  · exact ⟨ht, t.le_refl⟩
  · split
    · exact ⟨ht, t.le_refl⟩
    · obtain ⟨t', oid, rid, hg, h1, h2, -⟩ := getProxy_ok ht v
      rw [hg]; exact ⟨h1, h2⟩

/-- Serialization, successful or not, keeps the table consistent and everything resolvable. -/
theorem pack_table {E : SendEnv} : ∀ n t v, TableOk E t →
    TableOk E (pack E n t v).1 ∧ t.le (pack E n t v).1 := by
  intro n
  induction n with
  | zero => intro t v ht; exact ⟨ht, t.le_refl⟩
  | succ n ih =>
    have hM : ∀ {α β : Type} (f : Refs → α → Refs × Except Exc β),
        (∀ t a, TableOk E t → TableOk E (f t a).1 ∧ t.le (f t a).1) →
        ∀ (l : List α) t, TableOk E t → TableOk E (mapS f t l).1 ∧ t.le (mapS f t l).1 := by
      intro α β f hf l
      induction l with
      | nil => intro t ht; exact ⟨ht, t.le_refl⟩
      | cons a l ihl =>
        intro t ht
        have h1 := hf t a ht
        simp only [mapS]
        split
        · rename_i h; rw [h] at h1; exact h1
        · rename_i t1 b h; rw [h] at h1
          have h2 := ihl t1 h1.1
          split
          · rename_i h'; rw [h'] at h2; exact ⟨h2.1, Refs.le_trans h1.2 h2.2⟩
          · rename_i h'; rw [h'] at h2; exact ⟨h2.1, Refs.le_trans h1.2 h2.2⟩
    have hP : ∀ t (a : Val × Val), TableOk E t →
        TableOk E (pairS (pack E n) t a).1 ∧ t.le (pairS (pack E n) t a).1 := by
      intro t a ht
      have h1 := ih t a.1 ht
      simp only [pairS]
      split
      · rename_i h; rw [h] at h1; exact h1
      · rename_i t1 b h; rw [h] at h1
        have h2 := ih t1 a.2 h1.1
        split
        · rename_i h'; rw [h'] at h2; exact ⟨h2.1, Refs.le_trans h1.2 h2.2⟩
        · rename_i h'; rw [h'] at h2; exact ⟨h2.1, Refs.le_trans h1.2 h2.2⟩
    have hdef : ∀ t v, TableOk E t → TableOk E (Via E n t v).1 ∧ t.le (Via E n t v).1 := by
      intro t v ht
      have h1 := encode_table ht v
      simp only [Via]
      split
      · rename_i t1 d h; rw [h] at h1
        have h2 := hM _ hP d t1 h1.1
        split
        · rename_i h'; rw [h'] at h2; exact ⟨h2.1, Refs.le_trans h1.2 h2.2⟩
        · rename_i h'; rw [h'] at h2; exact ⟨h2.1, Refs.le_trans h1.2 h2.2⟩
      · rename_i t1 d h; rw [h] at h1; exact h1
    intro t v ht
    cases v <;> simp only [pack]
    case int i =>
      split
      · exact ⟨ht, t.le_refl⟩
      · exact hdef t _ ht
    case list l =>
      have := hM _ ih l t ht
      split
      · rename_i h; rw [h] at this; exact this
      · rename_i h; rw [h] at this; exact this
    case dict d =>
      have := hM _ hP d t ht
      split
      · rename_i h; rw [h] at this; exact this
      · rename_i h; rw [h] at this; exact this
    all_goals first
      | exact ⟨ht, t.le_refl⟩
      | exact hdef t _ ht

/-! ## bad keys -/

/-- A value that cannot arrive as str or bytes. -/
theorem arrives_not_key {tys P} (hty : ∀ ty ∈ defaultTypes, ty ∈ tys) : ∀ (k k' : Val), Arrives tys P k k' →
    (match k with | .str _ => False | .bytes _ => False | _ => True) →
    (match k.core with | .proxy _ => False | .obj _ _ => False | _ => True) → keyOk k' = false
  | .sub c v, k', h, _, h2 => by
    simp only [Arrives] at h
    split at h
    · rename_i hf
      refine arrives_not_key hty v k' h ?_ (by simpa [Val.core] using h2)
      cases v <;> simp [Val.flattened, Val.core] at hf ⊢
    · rename_i hf
      have : (Val.sub c v).isinstance tys = true := by
        refine isinstance_default hty ?_
        simp only [Val.core, Val.flattened] at h2 hf ⊢
        revert h2 hf
        cases v.core <;> simp
      rw [if_pos this] at h; subst h; rfl
  | .list _, k', h, _, _ => by simp only [Arrives] at h; obtain ⟨_, rfl, _⟩ := h; rfl
  | .tuple _, k', h, _, _ => by simp only [Arrives] at h; obtain ⟨_, rfl, _⟩ := h; rfl
  | .dict _, k', h, _, _ => by simp only [Arrives] at h; obtain ⟨_, rfl, _⟩ := h; rfl
  | .datetime _, k', h, _, _ => by simp only [Arrives] at h; subst h; rfl
  | .ndarray _, k', h, _, _ => by simp only [Arrives] at h; obtain ⟨_, rfl, _⟩ := h; rfl
  | .proxy _, k', _, _, h => by simp [Val.core] at h
  | .obj _ _, k', _, _, h => by simp [Val.core] at h
  | .none, k', h, _, _ => by simp only [Arrives] at h; subst h; rfl
  | .bool _, k', h, _, _ => by simp only [Arrives] at h; subst h; rfl
  | .int _, k', h, _, _ => by simp only [Arrives] at h; subst h; rfl
  | .float _, k', h, _, _ => by simp only [Arrives] at h; subst h; rfl
  | .str _, k', _, h, _ => h.elim
  | .bytes _, k', _, h, _ => h.elim
  | .date _, k', h, _, _ => by simp only [Arrives] at h; subst h; rfl
  | .npScalar _, k', h, _, _ => by simp only [Arrives] at h; subst h; rfl
  | .dtype _, k', h, _, _ => by simp only [Arrives] at h; subst h; rfl

theorem fails_iff {α : Type} {r : Except Exc α} : Fails r ↔ ∀ a, r ≠ .ok a := by
  cases r with
  | error e => exact ⟨fun _ a h => by simp at h, fun _ => ⟨e, rfl⟩⟩
  | ok a => exact ⟨fun ⟨e, h⟩ => by simp at h, fun h => absurd rfl (h a)⟩

theorem encode_tuple {E : SendEnv} (hty : ∀ ty ∈ defaultTypes, ty ∈ E.tys) {t : Refs} {v : Val} {l : List Val}
    (h : v.core = .tuple l) : encode E t v = (t, .ok [(.str encodeKey, .str "tuple"), (.str "data", .list l)]) := by
  have : v.isinstance E.tys = true := isinstance_default hty (by rw [h]; trivial)
  simp only [encode, this, if_true, encodeValue, h]

mutual
theorem badKeyIn_core {R : RecvEnv} : ∀ v : Val, BadKeyIn R v → v.flattened = true → ∃ l, v.core = .tuple l ∧ BadKeyInL R l
  | .sub c v, h, hf => by
    simp only [BadKeyIn] at h
    simp only [Val.core]
    exact badKeyIn_core v h.2 h.1
  | .tuple l, h, _ => ⟨l, rfl, by simpa only [BadKeyIn] using h⟩
  | .list _, _, hf | .dict _, _, hf => by simp [Val.flattened, Val.core] at hf
  | .none, h, _ | .bool _, h, _ | .int _, h, _ | .float _, h, _ | .str _, h, _ | .bytes _, h, _
  | .datetime _, h, _ | .date _, h, _ | .ndarray _, h, _ | .npScalar _, h, _ | .dtype _, h, _ | .proxy _, h, _
  | .obj _ _, h, _ => by simp [BadKeyIn] at h
end

theorem badKey_fails {L : Lib} (hL : L.Laws) {E : SendEnv} {R : RecvEnv} (hE : E.lib = L) (hR : R.lib = L)
    (hty : ∀ ty ∈ defaultTypes, ty ∈ E.tys) (hno : NotOwner E R) :
    ∀ n t v t' w, TableOk E t → BadKeyIn R v → pack E n t v = (t', .ok w) → Fails (unpack R w) := by
  intro n
  induction n with
  | zero => intro t v t' w _ _ h; simp [pack] at h
  | succ n ih =>
    have hLst : ∀ (l : List Val) t t' ws, TableOk E t → BadKeyInL R l → mapS (pack E n) t l = (t', .ok ws) →
        Fails (unpackL R ws) := by
      intro l
      induction l with
      | nil => intro t t' ws _ hb; simp [BadKeyInL] at hb
      | cons v l ihl =>
        intro t t' ws ht hb h
        simp only [mapS] at h
        have htab := pack_table (E := E) n t v ht
        split at h
        · simp at h
        · rename_i t1 b hb1
          rw [hb1] at htab
          split at h
          · simp at h
          · rename_i t2 bs hbs
            simp only [Prod.mk.injEq, Except.ok.injEq] at h
            obtain ⟨rfl, rfl⟩ := h
            simp only [BadKeyInL] at hb
            rcases hb with hb | hb
            · obtain ⟨e, he⟩ := ih _ _ _ _ ht hb hb1
              exact ⟨e, by simp [unpackL, he]⟩
            · obtain ⟨e, he⟩ := ihl _ _ _ htab.1 hb hbs
              simp only [unpackL, he]
              split
              · exact ⟨_, rfl⟩
              · exact ⟨_, rfl⟩
    have hDct : ∀ (l : List (Val × Val)) t t' ws, TableOk E t → BadKeyInD R l →
        mapS (pairS (pack E n)) t l = (t', .ok ws) → Fails (unpackM R ws) := by
      intro l
      induction l with
      | nil => intro t t' ws _ hb; simp [BadKeyInD] at hb
      | cons v l ihl =>
        intro t t' ws ht hb h
        obtain ⟨k, v⟩ := v
        simp only [mapS] at h
        split at h
        · simp at h
        · rename_i t1 b hb1
          split at h
          · simp at h
          · rename_i t2 bs hbs
            simp only [Prod.mk.injEq, Except.ok.injEq] at h
            obtain ⟨rfl, rfl⟩ := h
            simp only [pairS] at hb1
            have htab := pack_table (E := E) n t k ht
            split at hb1
            · simp at hb1
            · rename_i t3 wk hk
              rw [hk] at htab
              have htab2 := pack_table (E := E) n t3 v htab.1
              split at hb1
              · simp at hb1
              · rename_i t4 wv hv
                rw [hv] at htab2
                simp only [Prod.mk.injEq, Except.ok.injEq] at hb1
                obtain ⟨rfl, rfl⟩ := hb1
                simp only [BadKeyInD] at hb
                simp only [unpackM]
                rcases hb with hb | hb | hb
                · obtain ⟨-, -, k', hu, hA⟩ := packOk hL hE hR hty hno n _ _ _ _ ht hb.1 hk
                  have := arrives_not_key hty k k' hA hb.2.1 hb.2.2
                  simp only [hu, this]
                  exact ⟨_, rfl⟩
                · obtain ⟨e, he⟩ := ih _ _ _ _ htab.1 hb hv
                  simp only [he]
                  repeat' split
                  all_goals exact ⟨_, rfl⟩
                · obtain ⟨e, he⟩ := ihl _ _ _ htab2.1 hb hbs
                  simp only [he]
                  repeat' split
                  all_goals exact ⟨_, rfl⟩
    have htup : ∀ v l t t' w, TableOk E t → v.core = .tuple l → BadKeyInL R l → Via E n t v = (t', .ok w) →
        Fails (unpack R w) := by
      intro v l t t' w ht hc hb h
      simp only [Via, encode_tuple hty hc] at h
      split at h
      · rename_i t1 m hm
        simp only [Prod.mk.injEq, Except.ok.injEq] at h
        obtain ⟨rfl, rfl⟩ := h
        have : BadKeyInD R [(.str encodeKey, .str "tuple"), (.str "data", .list l)] := by
          simp only [BadKeyInD, BadKeyIn]; exact Or.inr (Or.inr (Or.inr (Or.inl hb)))
        obtain ⟨e, he⟩ := hDct _ _ _ _ ht this hm
        exact ⟨e, by simp only [unpack, he]⟩
      · simp at h
    intro t v t' w ht hb h
    cases v
    case list l =>
      simp only [pack] at h
      split at h
      · rename_i t1 ws hw
        simp only [Prod.mk.injEq, Except.ok.injEq] at h; obtain ⟨rfl, rfl⟩ := h
        obtain ⟨e, he⟩ := hLst l _ _ _ ht (by simpa only [BadKeyIn] using hb) hw
        exact ⟨e, by simp only [unpack, he]⟩
      · simp at h
    case dict d =>
      simp only [pack] at h
      split at h
      · rename_i t1 ws hw
        simp only [Prod.mk.injEq, Except.ok.injEq] at h; obtain ⟨rfl, rfl⟩ := h
        obtain ⟨e, he⟩ := hDct d _ _ _ ht (by simpa only [BadKeyIn] using hb) hw
        exact ⟨e, by simp only [unpack, he]⟩
      · simp at h
    case tuple l =>
      simp only [pack] at h
      exact htup (.tuple l) l t t' w ht rfl (by simpa only [BadKeyIn] using hb) h
    case sub c v =>
      simp only [pack] at h
      have hf : (Val.sub c v).flattened = true := by
        simp only [BadKeyIn] at hb; simpa [Val.flattened, Val.core] using hb.1
      obtain ⟨l, hl, hbl⟩ := badKeyIn_core _ hb hf
      exact htup (.sub c v) l t t' w ht hl hbl h
    all_goals simp [BadKeyIn] at hb

/-! ## the reserved key -/

theorem lookupStr_removeStr (k : String) : ∀ d : List (Val × Val), lookupStr (removeStr d k) k = none
  | [] => rfl
  | (k', v) :: d => by
    have ih := lookupStr_removeStr k d
    cases k' <;> simp only [removeStr]
    case str s => split
                  · exact ih
                  · rename_i h; simp [lookupStr, h, ih]
    all_goals simp only [lookupStr]; exact ih

theorem arrives_text {tys P} (hty : ∀ ty ∈ defaultTypes, ty ∈ tys) : ∀ (x x' : Val), Arrives tys P x x' →
    (match x.core with | .proxy _ => False | .obj _ _ => False | _ => True) → x'.text? = x.text?
  | .sub c v, x', h, h2 => by
    simp only [Arrives] at h
    split at h
    · rw [arrives_text hty v x' h (by simpa [Val.core] using h2)]; simp [Val.text?, Val.core]
    · rename_i hf
      have : (Val.sub c v).isinstance tys = true := by
        refine isinstance_default hty ?_
        simp only [Val.core, Val.flattened] at h2 hf ⊢
        revert h2 hf
        cases v.core <;> simp
      rw [if_pos this] at h; subst h; rfl
  | .list _, k', h, _ => by simp only [Arrives] at h; obtain ⟨_, rfl, _⟩ := h; rfl
  | .tuple _, k', h, _ => by simp only [Arrives] at h; obtain ⟨_, rfl, _⟩ := h; rfl
  | .dict _, k', h, _ => by simp only [Arrives] at h; obtain ⟨_, rfl, _⟩ := h; rfl
  | .datetime _, k', h, _ => by simp only [Arrives] at h; subst h; rfl
  | .ndarray _, k', h, _ => by simp only [Arrives] at h; obtain ⟨_, rfl, _⟩ := h; rfl
  | .proxy _, k', _, h => by simp [Val.core] at h
  | .obj _ _, k', _, h => by simp [Val.core] at h
  | .none, k', h, _ => by simp only [Arrives] at h; subst h; rfl
  | .bool _, k', h, _ => by simp only [Arrives] at h; subst h; rfl
  | .int _, k', h, _ => by simp only [Arrives] at h; subst h; rfl
  | .float _, k', h, _ => by simp only [Arrives] at h; subst h; rfl
  | .str _, k', h, _ => by simp only [Arrives] at h; subst h; rfl
  | .bytes _, k', h, _ => by simp only [Arrives] at h; subst h; rfl
  | .date _, k', h, _ => by simp only [Arrives] at h; subst h; rfl
  | .npScalar _, k', h, _ => by simp only [Arrives] at h; subst h; rfl
  | .dtype _, k', h, _ => by simp only [Arrives] at h; subst h; rfl

theorem arrivesD_lookup {tys P} (k : String) : ∀ (d d' : List (Val × Val)) (x : Val), ArrivesD tys P d d' →
    lookupStr d k = some x → ∃ x', lookupStr d' k = some x' ∧ Arrives tys P x x'
  | [], d', x, _, h => by simp [lookupStr] at h
  | (k', v) :: d, d', x, hA, h => by
    simp only [ArrivesD] at hA
    obtain ⟨v', vs', rfl, h1, h2⟩ := hA
    cases k'
    case str s =>
      simp only [lookupStr] at h ⊢
      split at h
      · rename_i hs; simp only [Option.some.injEq] at h; subst h; exact ⟨v', by simp [hs], h1⟩
      · rename_i hs; simp only [hs, if_false]; exact arrivesD_lookup k d vs' x h2 h
    all_goals
      simp only [lookupStr] at h ⊢
      exact arrivesD_lookup k d vs' x h2 h

/-- `buildArray` never gives a dict -/
theorem buildArray_not_dict (b dt sh d) : buildArray b dt sh ≠ .ok (.dict d) := by
  unfold buildArray
  repeat' split
  all_goals simp

theorem decodeArray_not_dict (R : RecvEnv) (d0 d) : decodeArray R d0 ≠ .ok (.dict d) := by
  unfold decodeArray
  repeat' split
  all_goals first | exact buildArray_not_dict _ _ _ _ | simp

theorem npMake_not_dict (L dt v d) : npMake L dt v ≠ .ok (.dict d) := by
  unfold npMake
  repeat' split
  all_goals simp

/-- What `decode` makes of a dict with the reserved key never has the reserved key. -/
theorem decode_reserved {R : RecvEnv} {d d2 : List (Val × Val)} {x : Val} (hx : lookupStr d encodeKey = some x)
    (hp : x.text? ≠ some "pickle") (hq : x.text? ≠ some "proxy") (h : decode R d = .ok (.dict d2)) :
    lookupStr d2 encodeKey = none := by
  unfold decode at h
  rw [hx] at h
  split at h
  · rename_i h'; simp at h'
  · simp only [Except.ok.injEq, Val.dict.injEq] at h; subst h; exact lookupStr_removeStr _ _
  · cases h
  · rename_i h'
    simp only [Option.some.injEq] at h'; subst h'
    simp only at h
    split at h
    · exact absurd h (decodeArray_not_dict _ _ _)
    · rename_i hh; exact absurd hh hp
    · repeat' split at h
      all_goals first | simp at h | exact absurd h (npMake_not_dict _ _ _ _)
    · repeat' split at h
      all_goals simp at h
    · repeat' split at h
      all_goals simp at h
    · repeat' split at h
      all_goals simp at h
    · simp at h
    · rename_i hh; exact absurd hh hq
    · simp only [Except.ok.injEq, Val.dict.injEq] at h; subst h; exact lookupStr_removeStr _ _

/-! ## there and back -/

mutual
/-- What arrives can be sent on. -/
theorem sendable_arrived {tys} {P : Val → Val → Prop} {R1 R2 : RecvEnv} {Q : Proxy → Prop} (hlib : R1.lib = R2.lib)
    (hP : ∀ u u', P u u' → (∀ p, u = .proxy p → Q p) → Sendable R2 u') :
    ∀ v v', Sendable R1 v → ProxiesIn Q v → Arrives tys P v v' → Sendable R2 v'
  | .list l, v', hs, hq, hA => by
    simp only [Arrives] at hA; obtain ⟨l', rfl, h⟩ := hA
    simp only [Sendable, ProxiesIn] at hs hq ⊢
    exact sendableL_arrived hlib hP l l' hs hq h
  | .tuple l, v', hs, hq, hA => by
    simp only [Arrives] at hA; obtain ⟨l', rfl, h⟩ := hA
    simp only [Sendable, ProxiesIn] at hs hq ⊢
    exact sendableL_arrived hlib hP l l' hs hq h
  | .dict d, v', hs, hq, hA => by
    simp only [Arrives] at hA; obtain ⟨d', rfl, h⟩ := hA
    simp only [Sendable, ProxiesIn] at hs hq ⊢
    have hk := h.keys
    refine ⟨⟨?_, ?_, ?_⟩, sendableD_arrived hlib hP d d' hs.2 hq h⟩
    · intro e he
      have : e.1 ∈ d.map (·.1) := by rw [← hk]; exact List.mem_map.2 ⟨e, he, rfl⟩
      obtain ⟨e', he', hee⟩ := List.mem_map.1 this
      rw [← hee]; exact hs.1.1 e' he'
    · exact pairwise_keys (r := fun a b => keyEq a b = false) hk hs.1.2.1
    · rw [lookupStr_none_keys, hk, ← lookupStr_none_keys]; exact hs.1.2.2
  | .datetime x, v', hs, _, hA => by
    simp only [Arrives] at hA; subst hA
    simp only [Sendable, ← hlib] at hs ⊢
    exact ⟨by have := hs.1; simpa [DateTime.valid] using this, hs.2⟩
  | .ndarray a, v', hs, _, hA => by
    simp only [Arrives] at hA; obtain ⟨b, rfl, h, -⟩ := hA
    simp only [Sendable, ← hlib] at hs ⊢
    rw [h.1]; exact hs
  | .proxy p, v', _, hq, hA => by
    simp only [Arrives] at hA
    refine hP _ _ hA ?_
    rintro p' hp; cases hp; simpa only [ProxiesIn] using hq
  | .sub c v, v', hs, hq, hA => by
    simp only [Arrives] at hA
    simp only [Sendable] at hs
    split at hA
    · rename_i hf; exact sendable_arrived hlib hP v v' (hs hf) (by simpa only [ProxiesIn] using hq) hA
    · rename_i hf
      split at hA
      · subst hA; simp only [Sendable]; intro h; exact absurd h hf
      · exact hP _ _ hA (by simp)
  | .obj o ts, v', hs, _, hA => by
    simp only [Arrives] at hA
    split at hA
    · subst hA; simp [Sendable]
    · exact hP _ _ hA (by simp)
  | .date x, v', hs, _, hA => by simp only [Arrives] at hA; subst hA; simpa only [Sendable, hlib] using hs
  | .npScalar x, v', hs, _, hA => by simp only [Arrives] at hA; subst hA; simpa only [Sendable, hlib] using hs
  | .none, v', hs, _, hA => by simp only [Arrives] at hA; subst hA; simp [Sendable]
  | .bool _, v', hs, _, hA => by simp only [Arrives] at hA; subst hA; simp [Sendable]
  | .int _, v', hs, _, hA => by simp only [Arrives] at hA; subst hA; simp [Sendable]
  | .float _, v', hs, _, hA => by simp only [Arrives] at hA; subst hA; simp [Sendable]
  | .str _, v', hs, _, hA => by simp only [Arrives] at hA; subst hA; simp [Sendable]
  | .bytes _, v', hs, _, hA => by simp only [Arrives] at hA; subst hA; simp [Sendable]
  | .dtype _, v', hs, _, hA => by simp only [Arrives] at hA; subst hA; simp [Sendable]
theorem sendableL_arrived {tys} {P : Val → Val → Prop} {R1 R2 : RecvEnv} {Q : Proxy → Prop} (hlib : R1.lib = R2.lib)
    (hP : ∀ u u', P u u' → (∀ p, u = .proxy p → Q p) → Sendable R2 u') :
    ∀ l l', SendableL R1 l → ProxiesInL Q l → ArrivesL tys P l l' → SendableL R2 l'
  | [], l', _, _, hA => by simp only [ArrivesL] at hA; subst hA; simp [SendableL]
  | v :: vs, l', hs, hq, hA => by
    simp only [ArrivesL] at hA; obtain ⟨v', vs', rfl, h1, h2⟩ := hA
    simp only [SendableL, ProxiesInL] at hs hq ⊢
    exact ⟨sendable_arrived hlib hP v v' hs.1 hq.1 h1, sendableL_arrived hlib hP vs vs' hs.2 hq.2 h2⟩
theorem sendableD_arrived {tys} {P : Val → Val → Prop} {R1 R2 : RecvEnv} {Q : Proxy → Prop} (hlib : R1.lib = R2.lib)
    (hP : ∀ u u', P u u' → (∀ p, u = .proxy p → Q p) → Sendable R2 u') :
    ∀ l l', SendableD R1 l → ProxiesInD Q l → ArrivesD tys P l l' → SendableD R2 l'
  | [], l', _, _, hA => by simp only [ArrivesD] at hA; subst hA; simp [SendableD]
  | (k, v) :: vs, l', hs, hq, hA => by
    simp only [ArrivesD] at hA; obtain ⟨v', vs', rfl, h1, h2⟩ := hA
    simp only [SendableD, ProxiesInD] at hs hq ⊢
    exact ⟨sendable_arrived hlib hP v v' hs.1 hq.1 h1, sendableD_arrived hlib hP vs vs' hs.2 hq.2 h2⟩
end

mutual
/-- Two transports after each other. -/
theorem arrives_comp {tys tys2} {P P2 P3 : Val → Val → Prop} {R : RecvEnv} {Q : Proxy → Prop}
    (hty : ∀ ty ∈ defaultTypes, ty ∈ tys2) (htys : ∀ ty ∈ tys, ty ∈ tys2)
    (h3 : ∀ u u' u'', P u u' → (∀ p, u = .proxy p → Q p) → Arrives tys2 P2 u' u'' → P3 u u'') :
    ∀ v v' v'', Sendable R v → ProxiesIn Q v → Arrives tys P v v' → Arrives tys2 P2 v' v'' → Arrives tys P3 v v''
  | .list l, v', v'', hs, hq, hA, hB => by
    simp only [Arrives] at hA; obtain ⟨l', rfl, h⟩ := hA
    simp only [Arrives] at hB; obtain ⟨l'', rfl, hb⟩ := hB
    simp only [Sendable, ProxiesIn, Arrives] at hs hq ⊢
    exact ⟨l'', rfl, arrivesL_comp hty htys h3 l l' l'' hs hq h hb⟩
  | .tuple l, v', v'', hs, hq, hA, hB => by
    simp only [Arrives] at hA; obtain ⟨l', rfl, h⟩ := hA
    simp only [Arrives] at hB; obtain ⟨l'', rfl, hb⟩ := hB
    simp only [Sendable, ProxiesIn, Arrives] at hs hq ⊢
    exact ⟨l'', rfl, arrivesL_comp hty htys h3 l l' l'' hs hq h hb⟩
  | .dict l, v', v'', hs, hq, hA, hB => by
    simp only [Arrives] at hA; obtain ⟨l', rfl, h⟩ := hA
    simp only [Arrives] at hB; obtain ⟨l'', rfl, hb⟩ := hB
    simp only [Sendable, ProxiesIn, Arrives] at hs hq ⊢
    exact ⟨l'', rfl, arrivesD_comp hty htys h3 l l' l'' hs.2 hq h hb⟩
  | .datetime x, v', v'', hs, _, hA, hB => by
    simp only [Arrives] at hA; subst hA
    simp only [Arrives] at hB; subst hB
    simp only [Arrives]
  | .ndarray a, v', v'', hs, _, hA, hB => by
    simp only [Arrives] at hA; obtain ⟨b, rfl, h, -⟩ := hA
    simp only [Arrives] at hB; obtain ⟨c, rfl, h', hc⟩ := hB
    simp only [Arrives]
    refine ⟨c, rfl, ⟨h'.1.trans h.1, h'.2.1.trans h.2.1, ?_⟩, hc⟩
    intro idx hi
    rw [h'.2.2 idx (by rw [h.2.1]; exact hi), h.2.2 idx hi]
  | .proxy p, v', v'', _, hq, hA, hB => by
    simp only [Arrives] at hA ⊢
    refine h3 _ _ _ hA ?_ hB
    rintro p' hp; cases hp; simpa only [ProxiesIn] using hq
  | .sub c v, v', v'', hs, hq, hA, hB => by
    simp only [Arrives] at hA ⊢
    simp only [Sendable] at hs
    split at hA
    · rename_i hf; rw [if_pos hf]
      exact arrives_comp hty htys h3 v v' v'' (hs hf) (by simpa only [ProxiesIn] using hq) hA hB
    · rename_i hf; rw [if_neg hf]
      split at hA
      · rename_i hi; rw [if_pos hi]; subst hA
        simp only [Arrives] at hB
        rw [if_neg hf, if_pos] at hB
        · exact hB
        · simp only [Val.isinstance, List.any_eq_true, decide_eq_true_eq] at hi ⊢
          obtain ⟨ty, h1, h2⟩ := hi
          exact ⟨ty, h1, htys ty h2⟩
      · rename_i hi; rw [if_neg hi]; exact h3 _ _ _ hA (by simp) hB
  | .obj o ts, v', v'', hs, _, hA, hB => by
    simp only [Arrives] at hA ⊢
    split at hA
    · rename_i hi; rw [if_pos hi]; subst hA
      simp only [Arrives] at hB
      rw [if_pos] at hB
      · exact hB
      · simp only [Val.isinstance, List.any_eq_true, decide_eq_true_eq] at hi ⊢
        obtain ⟨ty, h1, h2⟩ := hi
        exact ⟨ty, h1, htys ty h2⟩
    · rename_i hi; rw [if_neg hi]; exact h3 _ _ _ hA (by simp) hB
  | .date x, v', v'', _, _, hA, hB => by simp only [Arrives] at hA; subst hA; simpa only [Arrives] using hB
  | .npScalar x, v', v'', _, _, hA, hB => by simp only [Arrives] at hA; subst hA; simpa only [Arrives] using hB
  | .none, v', v'', _, _, hA, hB => by simp only [Arrives] at hA; subst hA; simpa only [Arrives] using hB
  | .bool x, v', v'', _, _, hA, hB => by simp only [Arrives] at hA; subst hA; simpa only [Arrives] using hB
  | .int x, v', v'', _, _, hA, hB => by simp only [Arrives] at hA; subst hA; simpa only [Arrives] using hB
  | .float x, v', v'', _, _, hA, hB => by simp only [Arrives] at hA; subst hA; simpa only [Arrives] using hB
  | .str x, v', v'', _, _, hA, hB => by simp only [Arrives] at hA; subst hA; simpa only [Arrives] using hB
  | .bytes x, v', v'', _, _, hA, hB => by simp only [Arrives] at hA; subst hA; simpa only [Arrives] using hB
  | .dtype x, v', v'', _, _, hA, hB => by simp only [Arrives] at hA; subst hA; simpa only [Arrives] using hB
theorem arrivesL_comp {tys tys2} {P P2 P3 : Val → Val → Prop} {R : RecvEnv} {Q : Proxy → Prop}
    (hty : ∀ ty ∈ defaultTypes, ty ∈ tys2) (htys : ∀ ty ∈ tys, ty ∈ tys2)
    (h3 : ∀ u u' u'', P u u' → (∀ p, u = .proxy p → Q p) → Arrives tys2 P2 u' u'' → P3 u u'') :
    ∀ l l' l'', SendableL R l → ProxiesInL Q l → ArrivesL tys P l l' → ArrivesL tys2 P2 l' l'' → ArrivesL tys P3 l l''
  | [], l', l'', _, _, hA, hB => by
    simp only [ArrivesL] at hA; subst hA; simpa only [ArrivesL] using hB
  | v :: vs, l', l'', hs, hq, hA, hB => by
    simp only [ArrivesL] at hA; obtain ⟨v', vs', rfl, h1, h2⟩ := hA
    simp only [ArrivesL] at hB; obtain ⟨v'', vs'', rfl, h4, h5⟩ := hB
    simp only [SendableL, ProxiesInL, ArrivesL] at hs hq ⊢
    exact ⟨v'', vs'', rfl, arrives_comp hty htys h3 v v' v'' hs.1 hq.1 h1 h4, arrivesL_comp hty htys h3 vs vs' vs'' hs.2 hq.2 h2 h5⟩
theorem arrivesD_comp {tys tys2} {P P2 P3 : Val → Val → Prop} {R : RecvEnv} {Q : Proxy → Prop}
    (hty : ∀ ty ∈ defaultTypes, ty ∈ tys2) (htys : ∀ ty ∈ tys, ty ∈ tys2)
    (h3 : ∀ u u' u'', P u u' → (∀ p, u = .proxy p → Q p) → Arrives tys2 P2 u' u'' → P3 u u'') :
    ∀ l l' l'', SendableD R l → ProxiesInD Q l → ArrivesD tys P l l' → ArrivesD tys2 P2 l' l'' → ArrivesD tys P3 l l''
  | [], l', l'', _, _, hA, hB => by
    simp only [ArrivesD] at hA; subst hA; simpa only [ArrivesD] using hB
  | (k, v) :: vs, l', l'', hs, hq, hA, hB => by
    simp only [ArrivesD] at hA; obtain ⟨v', vs', rfl, h1, h2⟩ := hA
    simp only [ArrivesD] at hB; obtain ⟨v'', vs'', rfl, h4, h5⟩ := hB
    simp only [SendableD, ProxiesInD, ArrivesD] at hs hq ⊢
    exact ⟨v'', vs'', rfl, arrives_comp hty htys h3 v v' v'' hs.1 hq.1 h1 h4, arrivesD_comp hty htys h3 vs vs' vs'' hs.2 hq.2 h2 h5⟩
end

end Verif
