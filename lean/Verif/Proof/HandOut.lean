import Verif.Spec.HandOut
import Verif.Proof.Relay
import Verif.Proof.Refs
/-! # Sending a value = replacing foreign objects by fresh proxies, then sending the result -/
namespace Verif

/-- hand out a proxy for one object -/
def handOne (E : SendEnv) (addr : String) (t : Refs) (v : Val) : Refs × Val :=
  match t.getProxy E.idOf (E.ident v) [] with
  | (t', .ok (oid, rid)) => (t', .proxy ⟨addr, oid, rid, E.typeStr v, []⟩)
  | (t', .error _) => (t', v)

mutual
/-- the value with every foreign object replaced by a fresh proxy -/
def proxied (E : SendEnv) (addr : String) : Refs → Val → Refs × Val
  | t, .list l => ((proxiedL E addr t l).1, .list (proxiedL E addr t l).2)
  | t, .tuple l => ((proxiedL E addr t l).1, .tuple (proxiedL E addr t l).2)
  | t, .dict l => ((proxiedD E addr t l).1, .dict (proxiedD E addr t l).2)
  | t, .sub c v =>
    if v.flattened then ((proxied E addr t v).1, .sub c (proxied E addr t v).2)
    else if (Val.sub c v).isinstance E.tys then (t, .sub c v) else handOne E addr t (.sub c v)
  | t, .obj o ts => if (Val.obj o ts).isinstance E.tys then (t, .obj o ts) else handOne E addr t (.obj o ts)
  | t, v => (t, v)
def proxiedL (E : SendEnv) (addr : String) : Refs → List Val → Refs × List Val
  | t, [] => (t, [])
  | t, v :: vs => ((proxiedL E addr (proxied E addr t v).1 vs).1, (proxied E addr t v).2 :: (proxiedL E addr (proxied E addr t v).1 vs).2)
def proxiedD (E : SendEnv) (addr : String) : Refs → List (Val × Val) → Refs × List (Val × Val)
  | t, [] => (t, [])
  | t, (k, v) :: vs =>
    ((proxiedD E addr (proxied E addr t v).1 vs).1, (k, (proxied E addr t v).2) :: (proxiedD E addr (proxied E addr t v).1 vs).2)
end

mutual
theorem proxied_plain {E : SendEnv} {addr : String} : ∀ (v : Val) (t : Refs), ¬ Foreign E.tys v → proxied E addr t v = (t, v)
  | .list l, t, h => by simp only [Foreign] at h; simp only [proxied, proxiedL_plain l t h]
  | .tuple l, t, h => by simp only [Foreign] at h; simp only [proxied, proxiedL_plain l t h]
  | .dict l, t, h => by simp only [Foreign] at h; simp only [proxied, proxiedD_plain l t h]
  | .sub c v, t, h => by
    simp only [Foreign] at h
    simp only [proxied]
    split
    · rename_i hf; rw [if_pos hf] at h; rw [proxied_plain v t h]
    · rename_i hf; rw [if_neg hf] at h; rw [if_pos (by simpa using h)]
  | .obj o ts, t, h => by
    simp only [Foreign] at h
    simp only [proxied]
    rw [if_pos (by simpa using h)]
  | .none, t, _ | .bool _, t, _ | .int _, t, _ | .float _, t, _ | .str _, t, _ | .bytes _, t, _ | .datetime _, t, _
  | .date _, t, _ | .ndarray _, t, _ | .npScalar _, t, _ | .dtype _, t, _ | .proxy _, t, _ => by simp only [proxied]
theorem proxiedL_plain {E : SendEnv} {addr : String} : ∀ (l : List Val) (t : Refs), ¬ ForeignL E.tys l → proxiedL E addr t l = (t, l)
  | [], t, _ => by simp only [proxiedL]
  | v :: vs, t, h => by
    simp only [ForeignL, not_or] at h
    simp only [proxiedL, proxied_plain v t h.1, proxiedL_plain vs t h.2]
theorem proxiedD_plain {E : SendEnv} {addr : String} : ∀ (l : List (Val × Val)) (t : Refs), ¬ ForeignD E.tys l → proxiedD E addr t l = (t, l)
  | [], t, _ => by simp only [proxiedD]
  | (k, v) :: vs, t, h => by
    simp only [ForeignD, not_or] at h
    simp only [proxiedD, proxied_plain v t h.1, proxiedD_plain vs t h.2]
end

/-- sending is replacing, then sending -/
def Fac (E : SendEnv) (addr : String) (n : Nat) : Prop :=
  ∀ t v t' w, Packable E.lib E.tys v → pack E n t v = (t', .ok w) →
    (proxied E addr t v).1 = t' ∧ ∀ t2, pack E n t2 (proxied E addr t v).2 = (t2, .ok w)

theorem facL {E addr n} (hn : Fac E addr n) : ∀ (l : List Val) t t' ws, PackableL E.lib E.tys l →
    mapS (pack E n) t l = (t', .ok ws) →
    (proxiedL E addr t l).1 = t' ∧ ∀ t2, mapS (pack E n) t2 (proxiedL E addr t l).2 = (t2, .ok ws)
  | [], t, t', ws, _, h => by
    simp only [mapS, Prod.mk.injEq, Except.ok.injEq] at h
    obtain ⟨rfl, rfl⟩ := h
    exact ⟨rfl, fun t2 => rfl⟩
  | v :: vs, t, t', ws, hp, h => by
    simp only [PackableL] at hp
    simp only [mapS] at h
    split at h
    · simp at h
    · rename_i t1 w hw
      split at h
      · simp at h
      · rename_i t2 ws' hws
        simp only [Prod.mk.injEq, Except.ok.injEq] at h
        obtain ⟨rfl, rfl⟩ := h
        obtain ⟨a1, a2⟩ := hn _ _ _ _ hp.1 hw
        obtain ⟨b1, b2⟩ := facL hn vs _ _ _ hp.2 hws
        refine ⟨by simp only [proxiedL, a1, b1], fun t3 => ?_⟩
        simp only [proxiedL, mapS, a1, a2, b2]

theorem facD {E addr n} (hn : Fac E addr n) : ∀ (d : List (Val × Val)) t t' m, (∀ e ∈ d, keyOk e.1 = true) →
    PackableD E.lib E.tys d → mapS (pairS (pack E n)) t d = (t', .ok m) →
    (proxiedD E addr t d).1 = t' ∧ ∀ t2, mapS (pairS (pack E n)) t2 (proxiedD E addr t d).2 = (t2, .ok m)
  | [], t, t', ws, _, _, h => by
    simp only [mapS, Prod.mk.injEq, Except.ok.injEq] at h
    obtain ⟨rfl, rfl⟩ := h
    exact ⟨rfl, fun t2 => rfl⟩
  | (k, v) :: vs, t, t', ws, hk, hp, h => by
    simp only [PackableD] at hp
    simp only [mapS] at h
    split at h
    · simp at h
    · rename_i t1 kw hw
      split at h
      · simp at h
      · rename_i t2 ws' hws
        simp only [Prod.mk.injEq, Except.ok.injEq] at h
        obtain ⟨rfl, rfl⟩ := h
        simp only [pairS] at hw
        split at hw
        · simp at hw
        · rename_i t0 kk hkk
          split at hw
          · simp at hw
          · rename_i t1' w hv
            simp only [Prod.mk.injEq, Except.ok.injEq] at hw
            obtain ⟨rfl, rfl⟩ := hw
            have hk0 : keyOk k = true := hk (k, v) (by simp)
            have hkey : ∀ t2, pack E n t2 k = (t2, .ok kk) := by
              intro t2
              cases n with
              | zero => simp [pack] at hkk
              | succ n =>
                cases k <;> simp only [keyOk, Bool.false_eq_true] at hk0
                all_goals
                  simp only [pack, Prod.mk.injEq, Except.ok.injEq] at hkk ⊢
                  exact ⟨trivial, hkk.2⟩
            have := hkey t
            rw [this] at hkk
            simp only [Prod.mk.injEq, and_true] at hkk
            subst hkk
            obtain ⟨a1, a2⟩ := hn _ _ _ _ hp.1 hv
            obtain ⟨b1, b2⟩ := facD hn vs _ _ _ (fun e he => hk e (by simp [he])) hp.2 hws
            refine ⟨by simp only [proxiedD, a1, b1], fun t3 => ?_⟩
            simp only [proxiedD, mapS, pairS, hkey, a1, a2, b2]

mutual
theorem proxied_flat {E : SendEnv} {addr : String} : ∀ (v : Val) (t : Refs), v.flattened = true →
    (proxied E addr t v).2.types = v.types ∧ (proxied E addr t v).2.core = (proxied E addr t v.core).2 ∧
    (proxied E addr t v).1 = (proxied E addr t v.core).1
  | .sub c v, t, h => by
    have hf : v.flattened = true := by simpa [Val.flattened, Val.core] using h
    obtain ⟨h1, h2, h3⟩ := proxied_flat (E := E) (addr := addr) v t hf
    simp only [proxied, hf, if_true, Val.types, Val.core, h1, h2, h3, and_self]
  | .list l, t, h | .dict l, t, h => by simp [Val.flattened, Val.core] at h
  | .obj _ _, t, h => by simp [Val.flattened, Val.core] at h
  | .tuple l, t, h => by simp [proxied, Val.types, Val.core]
  | .none, t, _ | .bool _, t, _ | .int _, t, _ | .float _, t, _ | .str _, t, _ | .bytes _, t, _ | .datetime _, t, _
  | .date _, t, _ | .ndarray _, t, _ | .npScalar _, t, _ | .dtype _, t, _ | .proxy _, t, _ => by
    simp [proxied, Val.core]
end

/-- The `default` hook. -/
theorem facVia {E : SendEnv} (hL : E.lib.Laws) (hty : ∀ ty ∈ defaultTypes, ty ∈ E.tys) {addr : String}
    (ha : E.server = some addr) {n} (hn : Fac E addr n) {v : Val} {t t' : Refs} {w : Wire}
    (hp : Packable E.lib E.tys v)
    (hpl : v.isinstance E.tys = true → v.flattened = false → ¬ Foreign E.tys v)
    (hfo : v.isinstance E.tys = false → proxied E addr t v = handOne E addr t v)
    (h : Via E n t v = (t', .ok w)) :
    (proxied E addr t v).1 = t' ∧
      ((v.isinstance E.tys = true → ∀ t2, Via E n t2 (proxied E addr t v).2 = (t2, .ok w)) ∧
       (v.isinstance E.tys = false → ∃ p, (proxied E addr t v).2 = .proxy p ∧ ∀ t2, Via E n t2 (.proxy p) = (t2, .ok w))) := by
  unfold Via at h
  split at h
  · rename_i t1 d hd
    split at h
    · rename_i t1' m hm
      simp only [Prod.mk.injEq, Except.ok.injEq] at h
      obtain ⟨rfl, rfl⟩ := h
      unfold encode at hd
      split at hd
      · rename_i hi
        simp only [Prod.mk.injEq] at hd
        obtain ⟨rfl, hd⟩ := hd
        rw [hi]
        simp only [Bool.true_eq_false, false_imp_iff, and_true, forall_const]
        by_cases hf : v.flattened = true
        · obtain ⟨h1, h2, h3, h4, h5⟩ := flat_core' v hf hp
          obtain ⟨d', e1, e2, e3, e4, e5⟩ := encodeValue_total hL h2 (core_core v) h1
          rw [h5, e1] at hd
          simp only [Except.ok.injEq] at hd
          subst hd
          obtain ⟨a1, a2⟩ := facD hn d' _ _ _ e2 e3 hm
          obtain ⟨b1, b2, b3⟩ := proxied_flat (E := E) (addr := addr) v t hf
          have hi2 : (proxied E addr t v).2.isinstance E.tys = true := by
            unfold Val.isinstance; rw [b1]; exact hi
          by_cases hF : Foreign E.tys v.core
          · -- a tuple
            have hcase : ∃ l, v.core = .tuple l := by
              revert h2 hF
              have := core_core v
              revert this
              cases v.core <;> simp [Val.flattened, Val.core, Foreign]
              rename_i c u; intro hc; exact absurd hc (core_ne_sub c u _)
            obtain ⟨l, hl⟩ := hcase
            rw [hl] at e1 b2 b3
            simp only [encodeValue, Val.core, Except.ok.injEq] at e1
            subst e1
            simp only [proxied] at b2 b3
            simp only [proxiedD, proxied] at a1 a2
            refine ⟨by rw [b3]; exact a1, fun t2 => ?_⟩
            have : encode E t2 (proxied E addr t v).2 = (t2, .ok [(.str encodeKey, .str "tuple"), (.str "data", .list (proxiedL E addr t l).2)]) := by
              unfold encode
              rw [if_pos hi2]
              simp only [encodeValue, b2]
            unfold Via
            rw [this]
            simp only [a2]
          · have hFv : ¬ Foreign E.tys v := fun h => hF (h4.1 h)
            have hFd : ¬ ForeignD E.tys d' := fun h => hF (e5.1 h)
            rw [proxiedD_plain _ _ hFd] at a1 a2
            rw [proxied_plain _ _ hFv]
            refine ⟨a1, fun t2 => ?_⟩
            have : encode E t2 v = (t2, .ok d') := by
              unfold encode; rw [if_pos hi, h5, e1]
            unfold Via
            rw [this]
            simp only [a2]
        · have hf' : v.flattened = false := by simpa using hf
          obtain ⟨b, hb, rfl⟩ := encodeValue_pickle hf' hd
          obtain ⟨a1, a2⟩ := facD hn _ _ _ _ (by simp [keyOk]) (by simp [PackableD, Packable]) hm
          rw [proxiedD_plain _ _ (by simp [ForeignD, Foreign])] at a1 a2
          rw [proxied_plain _ _ (hpl hi hf')]
          refine ⟨a1, fun t2 => ?_⟩
          have : encode E t2 v = (t2, .ok [(.str encodeKey, .str "pickle"), (.str "pickle_str", .bytes b)]) := by
            unfold encode; rw [if_pos hi, hd]
          unfold Via
          rw [this]
          simp only [a2]
      · rename_i hi
        have hi' : v.isinstance E.tys = false := by simpa using hi
        rw [ha] at hd
        simp only at hd
        obtain ⟨t3, oid, rid, hg⟩ := getProxy_succeeds E.idOf t (E.ident v)
        rw [hg] at hd
        simp only [Prod.mk.injEq] at hd
        obtain ⟨rfl, hd⟩ := hd
        obtain ⟨d', e1, e2, e3, e4, e5⟩ := encodeValue_total hL (tys := E.tys)
          (u := .proxy ⟨addr, oid, rid, E.typeStr v, []⟩) rfl rfl (by simp [Packable])
        rw [e1] at hd
        simp only [Except.ok.injEq] at hd
        subst hd
        obtain ⟨a1, a2⟩ := facD hn d' _ _ _ e2 e3 hm
        have hFd : ¬ ForeignD E.tys d' := fun h => by simpa [Foreign] using e5.1 h
        rw [proxiedD_plain _ _ hFd] at a1 a2
        have hpr : proxied E addr t v = (t3, .proxy ⟨addr, oid, rid, E.typeStr v, []⟩) := by
          rw [hfo hi', handOne, hg]
        rw [hpr]
        refine ⟨a1, fun h => absurd h hi, fun _ => ⟨_, rfl, fun t2 => ?_⟩⟩
        have hip : (Val.proxy ⟨addr, oid, rid, E.typeStr v, []⟩).isinstance E.tys = true :=
          isinstance_default hty (by simp [Val.core])
        have : encode E t2 (.proxy ⟨addr, oid, rid, E.typeStr v, []⟩) = (t2, .ok d') := by
          unfold encode; rw [if_pos hip, e1]
        unfold Via
        rw [this]
        simp only [a2]
    · simp at h
  · simp at h

/-- **Factorization.** -/
theorem fac {E : SendEnv} (hL : E.lib.Laws) (hty : ∀ ty ∈ defaultTypes, ty ∈ E.tys) {addr : String}
    (ha : E.server = some addr) : ∀ n, Fac E addr n := by
  intro n
  induction n with
  | zero => intro t v t' w _ h; simp [pack] at h
  | succ n ih =>
    intro t v t' w hp h
    have inst : ∀ {v : Val}, (match v.core with | .obj _ _ => False | .npScalar s => s.exact | _ => True) →
        v.isinstance E.tys = true := isinstance_default hty
    cases v
    case none => simp only [pack, Prod.mk.injEq, Except.ok.injEq] at h; obtain ⟨rfl, rfl⟩ := h
                 exact ⟨rfl, fun _ => rfl⟩
    case bool => simp only [pack, Prod.mk.injEq, Except.ok.injEq] at h; obtain ⟨rfl, rfl⟩ := h
                 exact ⟨rfl, fun _ => rfl⟩
    case float => simp only [pack, Prod.mk.injEq, Except.ok.injEq] at h; obtain ⟨rfl, rfl⟩ := h
                  exact ⟨rfl, fun _ => rfl⟩
    case str => simp only [pack, Prod.mk.injEq, Except.ok.injEq] at h; obtain ⟨rfl, rfl⟩ := h
                exact ⟨rfl, fun _ => rfl⟩
    case bytes => simp only [pack, Prod.mk.injEq, Except.ok.injEq] at h; obtain ⟨rfl, rfl⟩ := h
                  exact ⟨rfl, fun _ => rfl⟩
    case int i =>
      by_cases hc : -(2 : Int) ^ 63 ≤ i ∧ i < 2 ^ 64
      · simp only [pack, if_pos hc, Prod.mk.injEq, Except.ok.injEq] at h
        obtain ⟨rfl, rfl⟩ := h
        exact ⟨rfl, fun _ => by simp only [proxied, pack, if_pos hc]⟩
      · have hi : (Val.int i).isinstance E.tys = true := inst (by simp [Val.core])
        have h' : Via E n t (.int i) = (t', .ok w) := by
          simp only [pack, if_neg hc] at h; exact h
        obtain ⟨a, b, -⟩ := facVia hL hty ha ih hp (by simp [Foreign]) (by rw [hi]; simp) h'
        refine ⟨a, fun t2 => ?_⟩
        have := b hi t2
        simp only [proxied] at this ⊢
        simp only [pack, if_neg hc]
        exact this
    case list l =>
      simp only [Packable] at hp
      simp only [pack] at h
      split at h
      · rename_i t1 ws hw
        simp only [Prod.mk.injEq, Except.ok.injEq] at h; obtain ⟨rfl, rfl⟩ := h
        obtain ⟨a, b⟩ := facL ih l _ _ _ hp hw
        exact ⟨by simp only [proxied, a], fun t2 => by simp only [proxied, pack, b]⟩
      · simp at h
    case dict d =>
      simp only [Packable] at hp
      simp only [pack] at h
      split at h
      · rename_i t1 ws hw
        simp only [Prod.mk.injEq, Except.ok.injEq] at h; obtain ⟨rfl, rfl⟩ := h
        obtain ⟨a, b⟩ := facD ih d _ _ _ hp.1 hp.2 hw
        exact ⟨by simp only [proxied, a], fun t2 => by simp only [proxied, pack, b]⟩
      · simp at h
    case tuple l =>
      have hi : (Val.tuple l).isinstance E.tys = true := inst (by simp [Val.core])
      obtain ⟨a, b, -⟩ := facVia hL hty ha ih (v := .tuple l) hp (by simp [Val.flattened, Val.core]) (by rw [hi]; simp) h
      exact ⟨a, fun t2 => by have := b hi t2; simp only [proxied] at this ⊢; exact this⟩
    case datetime x =>
      have hi : (Val.datetime x).isinstance E.tys = true := inst (by simp [Val.core])
      obtain ⟨a, b, -⟩ := facVia hL hty ha ih (v := .datetime x) hp (by simp [Val.flattened, Val.core]) (by rw [hi]; simp) h
      exact ⟨a, fun t2 => by have := b hi t2; simp only [proxied] at this ⊢; exact this⟩
    case date x =>
      have hi : (Val.date x).isinstance E.tys = true := inst (by simp [Val.core])
      obtain ⟨a, b, -⟩ := facVia hL hty ha ih (v := .date x) hp (by simp [Val.flattened, Val.core]) (by rw [hi]; simp) h
      exact ⟨a, fun t2 => by have := b hi t2; simp only [proxied] at this ⊢; exact this⟩
    case ndarray x =>
      have hi : (Val.ndarray x).isinstance E.tys = true := inst (by simp [Val.core])
      obtain ⟨a, b, -⟩ := facVia hL hty ha ih (v := .ndarray x) hp (by simp [Val.flattened, Val.core]) (by rw [hi]; simp) h
      exact ⟨a, fun t2 => by have := b hi t2; simp only [proxied] at this ⊢; exact this⟩
    case proxy x =>
      have hi : (Val.proxy x).isinstance E.tys = true := inst (by simp [Val.core])
      obtain ⟨a, b, -⟩ := facVia hL hty ha ih (v := .proxy x) hp (by simp [Val.flattened, Val.core]) (by rw [hi]; simp) h
      exact ⟨a, fun t2 => by have := b hi t2; simp only [proxied] at this ⊢; exact this⟩
    case npScalar x =>
      have hi : (Val.npScalar x).isinstance E.tys = true := inst (by simp only [Packable] at hp; exact hp.1)
      obtain ⟨a, b, -⟩ := facVia hL hty ha ih (v := .npScalar x) hp (by simp [Val.flattened, Val.core]) (by rw [hi]; simp) h
      exact ⟨a, fun t2 => by have := b hi t2; simp only [proxied] at this ⊢; exact this⟩
    case dtype x =>
      have hi : (Val.dtype x).isinstance E.tys = true := inst (by simp [Val.core])
      obtain ⟨a, b, -⟩ := facVia hL hty ha ih (v := .dtype x) hp (by simp [Foreign]) (by rw [hi]; simp) h
      exact ⟨a, fun t2 => by have := b hi t2; simp only [proxied] at this ⊢; exact this⟩
    case obj o ts =>
      obtain ⟨a, b, c⟩ := facVia hL hty ha ih (v := .obj o ts) hp (by intro hi _; simp [Foreign, hi])
        (by intro hi; simp [proxied, hi]) h
      refine ⟨a, fun t2 => ?_⟩
      by_cases hi : (Val.obj o ts).isinstance E.tys = true
      · have := b hi t2
        rw [proxied_plain _ _ (by simp [Foreign, hi])] at this ⊢
        exact this
      · obtain ⟨p, h1, h2⟩ := c (by simpa using hi)
        rw [h1]; exact h2 t2
    case sub k u =>
      have hfe : (Val.sub k u).flattened = u.flattened := by simp [Val.flattened, Val.core]
      have hi1 : (Val.sub k u).flattened = true → (Val.sub k u).isinstance E.tys = true := by
        intro hf'
        refine inst ?_
        obtain ⟨h1, h2, -, -, -⟩ := flat_core' (L := E.lib) (tys := E.tys) _ hf' hp
        revert h1 h2
        simp only [Val.flattened, core_core]
        cases (Val.sub k u).core <;> simp +contextual [Packable]
      obtain ⟨a, b, c⟩ := facVia hL hty ha ih (v := .sub k u) hp
        (by
          intro hi hf
          rw [hfe] at hf
          simp [Foreign, hi, hf])
        (by
          intro hi
          have : u.flattened = false := by
            rw [← hfe]
            cases hx : (Val.sub k u).flattened
            · rfl
            · rw [hi1 hx] at hi; simp at hi
          simp [proxied, hi, this]) h
      refine ⟨a, fun t2 => ?_⟩
      by_cases hi : (Val.sub k u).isinstance E.tys = true
      · have := b hi t2
        by_cases hf : u.flattened = true
        · simp only [proxied, hf, if_true] at this ⊢
          exact this
        · simp only [proxied, if_neg hf, hi, if_true] at this ⊢
          exact this
      · obtain ⟨p, h1, h2⟩ := c (by simpa using hi)
        rw [h1]; exact h2 t2

/-- hand out proxies for these objects in turn -/
def handAll (E : SendEnv) (addr : String) : Refs → List Val → Refs × List Val
  | t, [] => (t, [])
  | t, u :: us => ((handAll E addr (handOne E addr t u).1 us).1, (handOne E addr t u).2 :: (handAll E addr (handOne E addr t u).1 us).2)

theorem handAll_append (E : SendEnv) (addr : String) : ∀ (us vs : List Val) (t : Refs),
    handAll E addr t (us ++ vs) = ((handAll E addr (handAll E addr t us).1 vs).1, (handAll E addr t us).2 ++ (handAll E addr (handAll E addr t us).1 vs).2)
  | [], vs, t => by simp [handAll]
  | u :: us, vs, t => by simp only [List.cons_append, handAll, handAll_append E addr us vs]

mutual
theorem proxied_fill {E : SendEnv} {addr : String} : ∀ (v : Val) (t : Refs),
    (proxied E addr t v).1 = (handAll E addr t (foreigns E.tys v)).1 ∧
    ∀ ps, fill E.tys v ((handAll E addr t (foreigns E.tys v)).2 ++ ps) = ((proxied E addr t v).2, ps)
  | .list l, t => by
    obtain ⟨h1, h2⟩ := proxiedL_fill (E := E) (addr := addr) l t
    simp only [proxied, foreigns, fill, h1, h2]; simp
  | .tuple l, t => by
    obtain ⟨h1, h2⟩ := proxiedL_fill (E := E) (addr := addr) l t
    simp only [proxied, foreigns, fill, h1, h2]; simp
  | .dict l, t => by
    obtain ⟨h1, h2⟩ := proxiedD_fill (E := E) (addr := addr) l t
    simp only [proxied, foreigns, fill, h1, h2]; simp
  | .sub c v, t => by
    simp only [proxied, foreigns, fill]
    split
    · obtain ⟨h1, h2⟩ := proxied_fill (E := E) (addr := addr) v t
      simp only [h1, h2]; simp
    · split
      · simp [handAll]
      · simp [handAll, takeOne]
  | .obj o ts, t => by
    simp only [proxied, foreigns, fill]
    split
    · simp [handAll]
    · simp [handAll, takeOne]
  | .none, t | .bool _, t | .int _, t | .float _, t | .str _, t | .bytes _, t | .datetime _, t
  | .date _, t | .ndarray _, t | .npScalar _, t | .dtype _, t | .proxy _, t => by
    simp [proxied, foreigns, fill, handAll]
theorem proxiedL_fill {E : SendEnv} {addr : String} : ∀ (l : List Val) (t : Refs),
    (proxiedL E addr t l).1 = (handAll E addr t (foreignsL E.tys l)).1 ∧
    ∀ ps, fillL E.tys l ((handAll E addr t (foreignsL E.tys l)).2 ++ ps) = ((proxiedL E addr t l).2, ps)
  | [], t => by simp [proxiedL, foreignsL, fillL, handAll]
  | v :: vs, t => by
    obtain ⟨h1, h2⟩ := proxied_fill (E := E) (addr := addr) v t
    obtain ⟨h3, h4⟩ := proxiedL_fill (E := E) (addr := addr) vs (proxied E addr t v).1
    rw [h1] at h3 h4
    simp only [proxiedL, foreignsL, fillL, handAll_append, List.append_assoc, h1, h2, h3, h4]; simp
theorem proxiedD_fill {E : SendEnv} {addr : String} : ∀ (l : List (Val × Val)) (t : Refs),
    (proxiedD E addr t l).1 = (handAll E addr t (foreignsD E.tys l)).1 ∧
    ∀ ps, fillD E.tys l ((handAll E addr t (foreignsD E.tys l)).2 ++ ps) = ((proxiedD E addr t l).2, ps)
  | [], t => by simp [proxiedD, foreignsD, fillD, handAll]
  | (k, v) :: vs, t => by
    obtain ⟨h1, h2⟩ := proxied_fill (E := E) (addr := addr) v t
    obtain ⟨h3, h4⟩ := proxiedD_fill (E := E) (addr := addr) vs (proxied E addr t v).1
    rw [h1] at h3 h4
    simp only [proxiedD, foreignsD, fillD, handAll_append, List.append_assoc, h1, h2, h3, h4]; simp
end

theorem handAll_reach {E : SendEnv} {addr : String} : ∀ (us : List Val) (h : RefHistory) (t : Refs), Reach E.idOf h t → Alive E h →
    ∃ (xs : List Handle) (h' : RefHistory), Reach E.idOf h' (handAll E addr t us).1 ∧ Alive E h' ∧
      outstanding h' = outstanding h ++ xs ∧ handedOut h' = handedOut h ++ xs ∧ xs.map (·.obj) = us.map E.ident ∧
      (handAll E addr t us).2 = List.zipWith (fun u x => x.toProxy addr (E.typeStr u)) us xs
  | [], h, t, hr, ha => ⟨[], h, hr, ha, by simp, by simp, rfl, rfl⟩
  | u :: us, h, t, hr, ha => by
    obtain ⟨t1, oid, rid, hg⟩ := getProxy_succeeds E.idOf t (E.ident u)
    have hstep : t.step E.idOf (.get (E.ident u) []) = (t1, .proxy oid rid) := by simp only [Refs.step, hg]
    have hr1 := Reach.step (.get (E.ident u) []) hr (fun x hx he => ha.held x hx u he)
    rw [hstep] at hr1
    simp only at hr1
    have ho : handOne E addr t u = (t1, Handle.toProxy addr (E.typeStr u) ⟨oid, rid, E.ident u⟩) := by
      simp only [handOne, hg, Handle.toProxy]
    have ha1 : Alive E (h ++ [(.get (E.ident u) [], .proxy oid rid)]) := by
      refine ⟨ha.sent, fun x hx u' he => ?_⟩
      rw [outstanding_append_get, List.mem_append, List.mem_singleton] at hx
      rcases hx with hx | rfl
      · exact ha.held x hx u' he
      · exact ha.sent u u' he
    obtain ⟨xs, h', h1, h2, h3, h4, h5, h6⟩ := handAll_reach (addr := addr) us _ _ hr1 ha1
    refine ⟨⟨oid, rid, E.ident u⟩ :: xs, h', ?_, h2, ?_, ?_, ?_, ?_⟩
    · simp only [handAll, ho]; exact h1
    · rw [h3, outstanding_append_get]; simp
    · rw [h4, handedOut_append]; simp [handedBy]
    · simp [h5]
    · simp only [handAll, ho, h6, List.zipWith_cons_cons]

mutual
/-- What is filled in is sendable. -/
theorem sendable_proxied {E : SendEnv} {R : RecvEnv} {addr : String}
    (hg : ∀ t u, Sendable R (handOne E addr t u).2) : ∀ (v : Val) (t : Refs), Sendable R v → Sendable R (proxied E addr t v).2
  | .list l, t, h => by simp only [Sendable, proxied] at *; exact sendableL_proxied hg l t h
  | .tuple l, t, h => by simp only [Sendable, proxied] at *; exact sendableL_proxied hg l t h
  | .dict d, t, h => by
    simp only [Sendable, proxied] at *
    have hk := proxiedD_keys (E := E) (addr := addr) d t
    refine ⟨⟨?_, ?_, ?_⟩, sendableD_proxied hg d t h.2⟩
    · intro e he
      have : e.1 ∈ d.map (·.1) := by rw [← hk]; exact List.mem_map.2 ⟨e, he, rfl⟩
      obtain ⟨e', he', hee⟩ := List.mem_map.1 this
      rw [← hee]; exact h.1.1 e' he'
    · exact pairwise_keys (r := fun a b => keyEq a b = false) hk h.1.2.1
    · rw [lookupStr_none_keys, hk, ← lookupStr_none_keys]; exact h.1.2.2
  | .sub c v, t, h => by
    simp only [proxied]
    split
    · rename_i hf
      simp only [Sendable] at *
      exact fun _ => sendable_proxied hg v t (h hf)
    · split
      · exact h
      · exact hg _ _
  | .obj o ts, t, h => by
    simp only [proxied]
    split
    · exact h
    · exact hg _ _
  | .none, t, h | .bool _, t, h | .int _, t, h | .float _, t, h | .str _, t, h | .bytes _, t, h | .datetime _, t, h
  | .date _, t, h | .ndarray _, t, h | .npScalar _, t, h | .dtype _, t, h | .proxy _, t, h => by
    simp only [proxied]; exact h
theorem sendableL_proxied {E : SendEnv} {R : RecvEnv} {addr : String}
    (hg : ∀ t u, Sendable R (handOne E addr t u).2) : ∀ (l : List Val) (t : Refs), SendableL R l → SendableL R (proxiedL E addr t l).2
  | [], t, _ => by simp [SendableL, proxiedL]
  | v :: vs, t, h => by
    simp only [SendableL, proxiedL] at *
    exact ⟨sendable_proxied hg v t h.1, sendableL_proxied hg vs _ h.2⟩
theorem sendableD_proxied {E : SendEnv} {R : RecvEnv} {addr : String}
    (hg : ∀ t u, Sendable R (handOne E addr t u).2) : ∀ (l : List (Val × Val)) (t : Refs), SendableD R l → SendableD R (proxiedD E addr t l).2
  | [], t, _ => by simp [SendableD, proxiedD]
  | (k, v) :: vs, t, h => by
    simp only [SendableD, proxiedD] at *
    exact ⟨sendable_proxied hg v t h.1, sendableD_proxied hg vs _ h.2⟩
theorem proxiedD_keys {E : SendEnv} {addr : String} : ∀ (l : List (Val × Val)) (t : Refs),
    (proxiedD E addr t l).2.map (·.1) = l.map (·.1)
  | [], t => by simp [proxiedD]
  | (k, v) :: vs, t => by simp only [proxiedD, List.map_cons, proxiedD_keys vs]
end

end Verif
