import Verif.Spec.Relay
import Verif.Proof.Transport
import Verif.Proof.SerializerMore
/-! # Proofs about messages handed on -/
namespace Verif

theorem mapS_same {α β : Type} {f g : Refs → α → Refs × Except Exc β}
    (h : ∀ t a t' b, f t a = (t', .ok b) → g t a = (t', .ok b)) :
    ∀ (l : List α) t t' bs, mapS f t l = (t', .ok bs) → mapS g t l = (t', .ok bs)
  | [], _, _, _, e => e
  | a :: l, t, t', bs, e => by
    simp only [mapS] at e ⊢
    split at e
    · simp at e
    · rename_i t1 b h1
      rw [h _ _ _ _ h1]
      simp only
      split at e
      · simp at e
      · rename_i t2 bs' h2
        rw [mapS_same h l _ _ _ h2]
        exact e

theorem pairS_same {β : Type} {f g : Refs → Val → Refs × Except Exc β}
    (h : ∀ t a t' b, f t a = (t', .ok b) → g t a = (t', .ok b)) :
    ∀ t kv t' b, pairS f t kv = (t', .ok b) → pairS g t kv = (t', .ok b) := by
  intro t kv t' b e
  simp only [pairS] at e ⊢
  split at e
  · simp at e
  · rename_i t1 k h1
    rw [h _ _ _ _ h1]
    simp only
    split at e
    · simp at e
    · rename_i t2 x h2
      rw [h _ _ _ _ h2]
      exact e

theorem encode_same {E : SendEnv} {t v t' d} (h : encode { E with server := none } t v = (t', .ok d)) :
    encode E t v = (t', .ok d) := by
  simp only [encode] at h ⊢
  split at h
  · rename_i hi; rw [if_pos hi]; exact h
  · simp at h

/-- What can be packed without a server is packed the same way with one. -/
theorem pack_same {E : SendEnv} : ∀ n t v t' w, pack { E with server := none } n t v = (t', .ok w) →
    pack E n t v = (t', .ok w) := by
  intro n
  induction n with
  | zero => intro t v t' w h; simp [pack] at h
  | succ n ih =>
    intro t v t' w h
    have hL := mapS_same (f := pack { E with server := none } n) (g := pack E n) ih
    have hD := mapS_same (pairS_same (f := pack { E with server := none } n) (g := pack E n) ih)
    have hvia : ∀ t d t' w, (match mapS (pairS (pack { E with server := none } n)) t d with
        | (t', .ok m) => (t', Except.ok (Wire.map m))
        | (t', .error e) => (t', .error e)) = (t', .ok w) →
        (match mapS (pairS (pack E n)) t d with
        | (t', .ok m) => (t', Except.ok (Wire.map m))
        | (t', .error e) => (t', .error e)) = (t', .ok w) := by
      intro t d t' w h
      split at h
      · rename_i t1 m h1; rw [hD _ _ _ _ h1]; exact h
      · simp at h
    have hdef : ∀ v : Val, (match encode { E with server := none } t v with
        | (t1, .ok d) => (match mapS (pairS (pack { E with server := none } n)) t1 d with
            | (t', .ok m) => (t', Except.ok (Wire.map m))
            | (t', .error e) => (t', .error e))
        | (t1, .error e) => (t1, .error e)) = (t', .ok w) →
        (match encode E t v with
        | (t1, .ok d) => (match mapS (pairS (pack E n)) t1 d with
            | (t', .ok m) => (t', Except.ok (Wire.map m))
            | (t', .error e) => (t', .error e))
        | (t1, .error e) => (t1, .error e)) = (t', .ok w) := by
      intro v h
      split at h
      · rename_i t1 d h1
        rw [encode_same h1]
        exact hvia _ _ _ _ h
      · simp at h
    cases v <;> simp only [pack] at h ⊢
    case none => exact h
    case bool => exact h
    case float => exact h
    case str => exact h
    case bytes => exact h
    case int i =>
      split at h
      · rename_i hc; rw [if_pos hc]; exact h
      · rename_i hc; rw [if_neg hc]; exact hdef _ h
    case list l =>
      split at h
      · rename_i t1 ws h1; rw [hL _ _ _ _ h1]; exact h
      · simp at h
    case dict d => exact hvia _ _ _ _ h
    all_goals exact hdef _ h

/-- Without foreign objects the table stays as it is, whether there is a server or not. -/
theorem dumps_plain {L : Lib} {E : SendEnv} (hL : L.Laws) (hE : E.lib = L) (hty : ∀ ty ∈ defaultTypes, ty ∈ E.tys)
    (t : Refs) {v} (hp : Packable L E.tys v) (hn : v.depth ≤ 512) (hf : ¬ Foreign E.tys v) :
    ∃ w, msgpackDumps E t v = (t, .ok w) := by
  have h := packT (E := { E with server := none }) (by rw [← hE] at hL; exact hL) hty 512 t v (by rw [← hE] at hp; exact hp) hn
  obtain ⟨t', w, hw⟩ := h.1 (Or.inr hf)
  have ht : t' = t := by
    have := pack_noServer (E := { E with server := none }) rfl 512 t v
    rw [hw] at this; exact this
  subst ht
  exact ⟨w, pack_same _ _ _ _ _ hw⟩


theorem isinstance_mono {tys tys2 : List Ty} (h : ∀ ty ∈ tys, ty ∈ tys2) {v : Val} (hi : v.isinstance tys = true) :
    v.isinstance tys2 = true := by
  simp only [Val.isinstance, List.any_eq_true, decide_eq_true_eq] at hi ⊢
  obtain ⟨ty, h1, h2⟩ := hi
  exact ⟨ty, h1, h ty h2⟩

mutual
/-- What arrives can be packed again, holds no foreign objects, and is not nested more deeply. -/
theorem arrived_portable {L : Lib} {tys tys2 : List Ty} {P : Val → Val → Prop} {Q : Proxy → Prop}
    (hty : ∀ ty ∈ tys, ty ∈ tys2) (hP : ∀ u u', P u u' → (∀ p, u = .proxy p → Q p) → ∃ p, u' = .proxy p) :
    ∀ v v', Packable L tys v → ProxiesIn Q v → Arrives tys P v v' →
      Packable L tys2 v' ∧ ¬ Foreign tys2 v' ∧ v'.depth ≤ v.depth
  | .list l, v', hp, hq, hA => by
    simp only [Arrives] at hA; obtain ⟨l', rfl, h⟩ := hA
    simp only [Packable, ProxiesIn, Foreign, Val.depth] at hp hq ⊢
    obtain ⟨h1, h2, h3⟩ := arrivedL_portable hty hP l l' hp hq h
    exact ⟨h1, h2, by omega⟩
  | .tuple l, v', hp, hq, hA => by
    simp only [Arrives] at hA; obtain ⟨l', rfl, h⟩ := hA
    simp only [Packable, ProxiesIn, Foreign, Val.depth] at hp hq ⊢
    obtain ⟨h1, h2, h3⟩ := arrivedL_portable hty hP l l' hp hq h
    exact ⟨h1, h2, by omega⟩
  | .dict d, v', hp, hq, hA => by
    simp only [Arrives] at hA; obtain ⟨d', rfl, h⟩ := hA
    simp only [Packable, ProxiesIn, Foreign, Val.depth] at hp hq ⊢
    obtain ⟨h1, h2, h3⟩ := arrivedD_portable hty hP d d' hp.2 hq h
    refine ⟨⟨?_, h1⟩, h2, by omega⟩
    have hk := h.keys
    intro e he
    have : e.1 ∈ d.map (·.1) := by rw [← hk]; exact List.mem_map.2 ⟨e, he, rfl⟩
    obtain ⟨e', he', hee⟩ := List.mem_map.1 this
    rw [← hee]; exact hp.1 e' he'
  | .datetime x, v', _, _, hA => by
    simp only [Arrives] at hA; subst hA; simp [Packable, Foreign, Val.depth]
  | .ndarray a, v', _, _, hA => by
    simp only [Arrives] at hA; obtain ⟨b, rfl, -⟩ := hA; simp [Packable, Foreign, Val.depth]
  | .proxy p, v', _, hq, hA => by
    simp only [Arrives] at hA
    obtain ⟨p', rfl⟩ := hP _ _ hA (by rintro p' hp; cases hp; simpa only [ProxiesIn] using hq)
    simp [Packable, Foreign, Val.depth]
  | .sub c v, v', hp, hq, hA => by
    simp only [Arrives] at hA
    simp only [Packable, ProxiesIn] at hp hq
    split at hA
    · rename_i hf
      rw [if_pos hf] at hp
      obtain ⟨h1, h2, h3⟩ := arrived_portable hty hP v v' hp hq hA
      refine ⟨h1, h2, ?_⟩
      simp only [Val.depth]; rw [if_pos hf]; omega
    · rename_i hf
      rw [if_neg hf] at hp
      split at hA
      · rename_i hi
        subst hA
        refine ⟨?_, ?_, Nat.le_refl _⟩
        · simp only [Packable]; rw [if_neg hf]; exact fun _ => hp hi
        · simp only [Foreign]; rw [if_neg hf, isinstance_mono hty hi]; simp
      · obtain ⟨p, rfl⟩ := hP _ _ hA (by simp)
        refine ⟨by simp [Packable], by simp [Foreign], ?_⟩
        simp only [Val.depth]; rw [if_neg hf]; omega
  | .obj o ts, v', hp, _, hA => by
    simp only [Arrives] at hA
    simp only [Packable] at hp
    split at hA
    · rename_i hi
      subst hA
      refine ⟨?_, ?_, Nat.le_refl _⟩
      · simp only [Packable]; exact fun _ => hp hi
      · simp only [Foreign]; rw [isinstance_mono hty hi]; simp
    · obtain ⟨p, rfl⟩ := hP _ _ hA (by simp)
      simp [Packable, Foreign, Val.depth]
  | .date x, v', _, _, hA => by simp only [Arrives] at hA; subst hA; simp [Packable, Foreign]
  | .npScalar x, v', hp, _, hA => by
    simp only [Arrives] at hA; subst hA; simp only [Packable] at hp; simpa [Packable, Foreign] using hp
  | .dtype _, v', hp, _, hA => by
    simp only [Arrives] at hA; subst hA; simp only [Packable] at hp; simpa [Packable, Foreign] using hp
  | .none, v', _, _, hA => by simp only [Arrives] at hA; subst hA; simp [Packable, Foreign]
  | .bool _, v', _, _, hA => by simp only [Arrives] at hA; subst hA; simp [Packable, Foreign]
  | .int _, v', _, _, hA => by simp only [Arrives] at hA; subst hA; simp [Packable, Foreign]
  | .float _, v', _, _, hA => by simp only [Arrives] at hA; subst hA; simp [Packable, Foreign]
  | .str _, v', _, _, hA => by simp only [Arrives] at hA; subst hA; simp [Packable, Foreign]
  | .bytes _, v', _, _, hA => by simp only [Arrives] at hA; subst hA; simp [Packable, Foreign]
theorem arrivedL_portable {L : Lib} {tys tys2 : List Ty} {P : Val → Val → Prop} {Q : Proxy → Prop}
    (hty : ∀ ty ∈ tys, ty ∈ tys2) (hP : ∀ u u', P u u' → (∀ p, u = .proxy p → Q p) → ∃ p, u' = .proxy p) :
    ∀ l l', PackableL L tys l → ProxiesInL Q l → ArrivesL tys P l l' →
      PackableL L tys2 l' ∧ ¬ ForeignL tys2 l' ∧ depthL l' ≤ depthL l
  | [], l', _, _, hA => by simp only [ArrivesL] at hA; subst hA; simp [PackableL, ForeignL]
  | v :: vs, l', hp, hq, hA => by
    simp only [ArrivesL] at hA; obtain ⟨v', vs', rfl, h1, h2⟩ := hA
    simp only [PackableL, ProxiesInL, ForeignL, depthL] at hp hq ⊢
    obtain ⟨a1, a2, a3⟩ := arrived_portable hty hP v v' hp.1 hq.1 h1
    obtain ⟨b1, b2, b3⟩ := arrivedL_portable hty hP vs vs' hp.2 hq.2 h2
    exact ⟨⟨a1, b1⟩, fun h => h.elim a2 b2, by omega⟩
theorem arrivedD_portable {L : Lib} {tys tys2 : List Ty} {P : Val → Val → Prop} {Q : Proxy → Prop}
    (hty : ∀ ty ∈ tys, ty ∈ tys2) (hP : ∀ u u', P u u' → (∀ p, u = .proxy p → Q p) → ∃ p, u' = .proxy p) :
    ∀ l l', PackableD L tys l → ProxiesInD Q l → ArrivesD tys P l l' →
      PackableD L tys2 l' ∧ ¬ ForeignD tys2 l' ∧ depthD l' ≤ depthD l
  | [], l', _, _, hA => by simp only [ArrivesD] at hA; subst hA; simp [PackableD, ForeignD]
  | (k, v) :: vs, l', hp, hq, hA => by
    simp only [ArrivesD] at hA; obtain ⟨v', vs', rfl, h1, h2⟩ := hA
    simp only [PackableD, ProxiesInD, ForeignD, depthD] at hp hq ⊢
    obtain ⟨a1, a2, a3⟩ := arrived_portable hty hP v v' hp.1 hq.1 h1
    obtain ⟨b1, b2, b3⟩ := arrivedD_portable hty hP vs vs' hp.2 hq.2 h2
    exact ⟨⟨a1, b1⟩, fun h => h.elim a2 b2, by omega⟩
end

mutual
theorem proxiesIn_and {Q1 Q2 : Proxy → Prop} : ∀ v, ProxiesIn Q1 v → ProxiesIn Q2 v → ProxiesIn (fun p => Q1 p ∧ Q2 p) v
  | .list l, h1, h2 => by simp only [ProxiesIn] at *; exact proxiesInL_and l h1 h2
  | .tuple l, h1, h2 => by simp only [ProxiesIn] at *; exact proxiesInL_and l h1 h2
  | .dict l, h1, h2 => by simp only [ProxiesIn] at *; exact proxiesInD_and l h1 h2
  | .proxy p, h1, h2 => by simp only [ProxiesIn] at *; exact ⟨h1, h2⟩
  | .sub _ v, h1, h2 => by simp only [ProxiesIn] at *; exact proxiesIn_and v h1 h2
  | .none, _, _ | .bool _, _, _ | .int _, _, _ | .float _, _, _ | .str _, _, _ | .bytes _, _, _ | .datetime _, _, _
  | .date _, _, _ | .ndarray _, _, _ | .npScalar _, _, _ | .dtype _, _, _ | .obj _ _, _, _ => by simp [ProxiesIn]
theorem proxiesInL_and {Q1 Q2 : Proxy → Prop} : ∀ l, ProxiesInL Q1 l → ProxiesInL Q2 l → ProxiesInL (fun p => Q1 p ∧ Q2 p) l
  | [], _, _ => by simp [ProxiesInL]
  | v :: vs, h1, h2 => by
    simp only [ProxiesInL] at *; exact ⟨proxiesIn_and v h1.1 h2.1, proxiesInL_and vs h1.2 h2.2⟩
theorem proxiesInD_and {Q1 Q2 : Proxy → Prop} : ∀ l, ProxiesInD Q1 l → ProxiesInD Q2 l → ProxiesInD (fun p => Q1 p ∧ Q2 p) l
  | [], _, _ => by simp [ProxiesInD]
  | (_, v) :: vs, h1, h2 => by
    simp only [ProxiesInD] at *; exact ⟨proxiesIn_and v h1.1 h2.1, proxiesInD_and vs h1.2 h2.2⟩
end

mutual
theorem proxiesIn_imp {Q1 Q2 : Proxy → Prop} (h : ∀ p, Q1 p → Q2 p) : ∀ v, ProxiesIn Q1 v → ProxiesIn Q2 v
  | .list l, h1 => by simp only [ProxiesIn] at *; exact proxiesInL_imp h l h1
  | .tuple l, h1 => by simp only [ProxiesIn] at *; exact proxiesInL_imp h l h1
  | .dict l, h1 => by simp only [ProxiesIn] at *; exact proxiesInD_imp h l h1
  | .proxy p, h1 => by simp only [ProxiesIn] at *; exact h p h1
  | .sub _ v, h1 => by simp only [ProxiesIn] at *; exact proxiesIn_imp h v h1
  | .none, _ | .bool _, _ | .int _, _ | .float _, _ | .str _, _ | .bytes _, _ | .datetime _, _
  | .date _, _ | .ndarray _, _ | .npScalar _, _ | .dtype _, _ | .obj _ _, _ => by simp [ProxiesIn]
theorem proxiesInL_imp {Q1 Q2 : Proxy → Prop} (h : ∀ p, Q1 p → Q2 p) : ∀ l, ProxiesInL Q1 l → ProxiesInL Q2 l
  | [], _ => by simp [ProxiesInL]
  | v :: vs, h1 => by simp only [ProxiesInL] at *; exact ⟨proxiesIn_imp h v h1.1, proxiesInL_imp h vs h1.2⟩
theorem proxiesInD_imp {Q1 Q2 : Proxy → Prop} (h : ∀ p, Q1 p → Q2 p) : ∀ l, ProxiesInD Q1 l → ProxiesInD Q2 l
  | [], _ => by simp [ProxiesInD]
  | (_, v) :: vs, h1 => by simp only [ProxiesInD] at *; exact ⟨proxiesIn_imp h v h1.1, proxiesInD_imp h vs h1.2⟩
end

mutual
/-- A value that can be sent to one receiver can be sent to another which can handle its proxies. -/
theorem sendable_moves {R1 R2 : RecvEnv} (hlib : R1.lib = R2.lib) : ∀ v, Sendable R1 v →
    ProxiesIn (fun p => ∃ x, received R2 p = .ok x) v → Sendable R2 v
  | .list l, h1, h2 => by simp only [ProxiesIn, Sendable] at *; exact sendableL_moves hlib l h1 h2
  | .tuple l, h1, h2 => by simp only [ProxiesIn, Sendable] at *; exact sendableL_moves hlib l h1 h2
  | .dict l, h1, h2 => by simp only [ProxiesIn, Sendable] at *; exact ⟨h1.1, sendableD_moves hlib l h1.2 h2⟩
  | .proxy p, h1, h2 => by simp only [ProxiesIn, Sendable] at *; exact h2
  | .sub _ v, h1, h2 => by simp only [ProxiesIn, Sendable] at *; exact fun h => sendable_moves hlib v (h1 h) h2
  | .datetime _, h1, _ | .date _, h1, _ | .ndarray _, h1, _ | .npScalar _, h1, _ => by
    simp only [Sendable, hlib] at *; exact h1
  | .none, _, _ | .bool _, _, _ | .int _, _, _ | .float _, _, _ | .str _, _, _ | .bytes _, _, _
  | .dtype _, _, _ | .obj _ _, _, _ => by simp [Sendable]
theorem sendableL_moves {R1 R2 : RecvEnv} (hlib : R1.lib = R2.lib) : ∀ l, SendableL R1 l →
    ProxiesInL (fun p => ∃ x, received R2 p = .ok x) l → SendableL R2 l
  | [], _, _ => by simp [SendableL]
  | v :: vs, h1, h2 => by
    simp only [ProxiesInL, SendableL] at *; exact ⟨sendable_moves hlib v h1.1 h2.1, sendableL_moves hlib vs h1.2 h2.2⟩
theorem sendableD_moves {R1 R2 : RecvEnv} (hlib : R1.lib = R2.lib) : ∀ l, SendableD R1 l →
    ProxiesInD (fun p => ∃ x, received R2 p = .ok x) l → SendableD R2 l
  | [], _, _ => by simp [SendableD]
  | (_, v) :: vs, h1, h2 => by
    simp only [ProxiesInD, SendableD] at *; exact ⟨sendable_moves hlib v h1.1 h2.1, sendableD_moves hlib vs h1.2 h2.2⟩
end

mutual
theorem exact_imp {tys} {Q1 Q2 : Proxy → Prop} (h : ∀ p, Q1 p → Q2 p) : ∀ v, Exact tys Q1 v → Exact tys Q2 v
  | .list l, h1 => by simp only [Exact] at *; exact exactL_imp h l h1
  | .tuple l, h1 => by simp only [Exact] at *; exact exactL_imp h l h1
  | .dict l, h1 => by simp only [Exact] at *; exact exactD_imp h l h1
  | .proxy p, h1 => by simp only [Exact] at *; exact h p h1
  | .sub _ v, h1 | .obj _ _, h1 | .datetime _, h1 => by simp only [Exact] at *; exact h1
  | .ndarray _, h1 => by simp only [Exact] at h1
  | .none, _ | .bool _, _ | .int _, _ | .float _, _ | .str _, _ | .bytes _, _
  | .date _, _ | .npScalar _, _ | .dtype _, _ => by simp [Exact]
theorem exactL_imp {tys} {Q1 Q2 : Proxy → Prop} (h : ∀ p, Q1 p → Q2 p) : ∀ l, ExactL tys Q1 l → ExactL tys Q2 l
  | [], _ => by simp [ExactL]
  | v :: vs, h1 => by simp only [ExactL] at *; exact ⟨exact_imp h v h1.1, exactL_imp h vs h1.2⟩
theorem exactD_imp {tys} {Q1 Q2 : Proxy → Prop} (h : ∀ p, Q1 p → Q2 p) : ∀ l, ExactD tys Q1 l → ExactD tys Q2 l
  | [], _ => by simp [ExactD]
  | (_, v) :: vs, h1 => by simp only [ExactD] at *; exact ⟨exact_imp h v h1.1, exactD_imp h vs h1.2⟩
end

end Verif
