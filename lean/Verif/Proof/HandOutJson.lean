import Verif.Proof.HandOut
import Verif.Proof.JsonTotal
/-! # Sending a value by JSON = replacing foreign objects by fresh proxies, then sending the result -/
namespace Verif

mutual
/-- the value with every object that JSON sends by proxy replaced by a fresh proxy -/
def jproxied (E : SendEnv) (addr : String) : Refs → Val → Refs × Val
  | t, .list l => ((jproxiedL E addr t l).1, .list (jproxiedL E addr t l).2)
  | t, .tuple l => ((jproxiedL E addr t l).1, .tuple (jproxiedL E addr t l).2)
  | t, .dict l => ((jproxiedD E addr t l).1, .dict (jproxiedD E addr t l).2)
  | t, .sub c v =>
    if v.jflattened then ((jproxied E addr t v).1, .sub c (jproxied E addr t v).2)
    else if (Val.sub c v).isinstance E.tys then (t, .sub c v) else handOne E addr t (.sub c v)
  | t, .obj o ts => if (Val.obj o ts).isinstance E.tys then (t, .obj o ts) else handOne E addr t (.obj o ts)
  | t, v => (t, v)
def jproxiedL (E : SendEnv) (addr : String) : Refs → List Val → Refs × List Val
  | t, [] => (t, [])
  | t, v :: vs => ((jproxiedL E addr (jproxied E addr t v).1 vs).1, (jproxied E addr t v).2 :: (jproxiedL E addr (jproxied E addr t v).1 vs).2)
def jproxiedD (E : SendEnv) (addr : String) : Refs → List (Val × Val) → Refs × List (Val × Val)
  | t, [] => (t, [])
  | t, (k, v) :: vs =>
    ((jproxiedD E addr (jproxied E addr t v).1 vs).1, (k, (jproxied E addr t v).2) :: (jproxiedD E addr (jproxied E addr t v).1 vs).2)
end

/-! ## Values that use no table -/

/-- packing `v` neither reads nor changes the table -/
def JUniform (E : SendEnv) (n : Nat) (v : Val) : Prop := ∃ r, ∀ t, jpack E n t v = (t, r)

theorem mapS_uniform {α β : Type} {f : Refs → α → Refs × Except Exc β} : ∀ {l : List α}, (∀ a ∈ l, ∃ r, ∀ t, f t a = (t, r)) → ∃ r, ∀ t, mapS f t l = (t, r)
  | [], _ => ⟨.ok [], fun _ => rfl⟩
  | a :: l, h => by
    obtain ⟨r, hr⟩ := h a (by simp)
    obtain ⟨r', hr'⟩ := mapS_uniform (l := l) (fun b hb => h b (by simp [hb]))
    cases r with
    | error e => exact ⟨.error e, fun t => by simp only [mapS, hr]⟩
    | ok b =>
      cases r' with
      | error e => exact ⟨.error e, fun t => by simp only [mapS, hr, hr']⟩
      | ok bs => exact ⟨.ok (b :: bs), fun t => by simp only [mapS, hr, hr']⟩

theorem jpair_uniform {E : SendEnv} {n : Nat} {k v : Val} (h : JUniform E n v) : ∃ r, ∀ t, jpair E.lib (jpack E n) t (k, v) = (t, r) := by
  obtain ⟨r, hr⟩ := h
  cases hk : jkey E.lib k with
  | error e => exact ⟨.error e, fun t => by simp only [jpair, hk]⟩
  | ok s =>
    cases r with
    | error e => exact ⟨.error e, fun t => by simp only [jpair, hk, hr]⟩
    | ok w => exact ⟨.ok (.str s, w), fun t => by simp only [jpair, hk, hr]⟩

theorem jmap_uniform {E : SendEnv} {n : Nat} {d : List (Val × Val)} (h : ∀ e ∈ d, JUniform E n e.2) : ∃ r, ∀ t, mapS (jpair E.lib (jpack E n)) t d = (t, r) :=
  mapS_uniform fun e he => jpair_uniform (k := e.1) (v := e.2) (h e he)

/-- the hook -/
theorem jvia_uniform {E : SendEnv} {n : Nat} {v : Val} {d : List (Val × Val)} (he : ∀ t, jencode E t v = (t, .ok d)) (h : ∀ e ∈ d, JUniform E n e.2) :
    ∃ r, ∀ t, JVia E n t v = (t, r) := by
  obtain ⟨r, hr⟩ := jmap_uniform h
  cases r with
  | error e => exact ⟨.error e, fun t => by simp only [JVia, he, hr]⟩
  | ok m => exact ⟨.ok (.map m), fun t => by simp only [JVia, he, hr]⟩

theorem jvia_uniform_error {E : SendEnv} {n : Nat} {v : Val} {e} (he : ∀ t, jencode E t v = (t, .error e)) :
    ∃ r, ∀ t, JVia E n t v = (t, r) := ⟨.error e, fun t => by simp only [JVia, he]⟩

theorem jpack_unfold (E : SendEnv) (n : Nat) (t : Refs) (v : Val) : jpack E (n + 1) t v = (match v.core with
      | .none => (t, .ok .nil)
      | .bool b => (t, .ok (.bool b))
      | .int i => (t, .ok (.int i))
      | .float f => (t, .ok (.float f))
      | .str s => (t, .ok (.str s))
      | .list l | .tuple l =>
        match mapS (jpack E n) t l with
        | (t', .ok ws) => (t', Except.ok (Wire.arr ws))
        | (t', .error e) => (t', .error e)
      | .dict d =>
        match mapS (jpair E.lib (jpack E n)) t d with
        | (t', .ok m) => (t', Except.ok (Wire.map m))
        | (t', .error e) => (t', .error e)
      | .npScalar s =>
        match s.dtype.kind, s.dtype.itemsize, s.val with
        | .floating, 8, .float f => (t, .ok (.float f))
        | _, _, _ => JVia E n t v
      | _ => JVia E n t v) := by
  simp only [jpack, JVia]
  cases v.core <;> rfl

theorem juni_zero {E : SendEnv} (v : Val) : JUniform E 0 v := ⟨_, fun _ => rfl⟩
theorem juni_leaf {E : SendEnv} (n : Nat) (v : Val) (h : match v.core with | .none | .bool _ | .int _ | .float _ | .str _ => True | _ => False) : JUniform E n v := by
  cases n with
  | zero => exact juni_zero v
  | succ n =>
    cases hc : v.core <;> simp only [hc] at h
    all_goals exact ⟨_, fun t => by rw [jpack_unfold, hc]⟩
theorem juni_list {E : SendEnv} {l : List Val} (n : Nat) (h : ∀ n, ∀ v ∈ l, JUniform E n v) (u : Val) (hu : u.core = .list l ∨ u.core = .tuple l) : JUniform E n u := by
  cases n with
  | zero => exact juni_zero _
  | succ n =>
    obtain ⟨r, hr⟩ := mapS_uniform (f := jpack E n) (l := l) (fun v hv => h n v hv)
    rcases hu with hu | hu <;> cases r <;> exact ⟨_, fun t => by rw [jpack_unfold, hu]; simp only [hr]; rfl⟩
theorem juni_bytes {E : SendEnv} (n : Nat) (b : Bytes) : JUniform E n (.bytes b) := by
  cases n with
  | zero => exact juni_zero _
  | succ n =>
    obtain ⟨r, hr⟩ := jvia_uniform (E := E) (n := n) (v := .bytes b) (fun t => rfl) (by
      intro e he
      simp only [List.mem_cons, List.not_mem_nil, or_false] at he
      rcases he with rfl | rfl <;> exact juni_leaf _ _ trivial)
    exact ⟨r, fun t => by rw [jpack_unfold]; exact hr t⟩
theorem juni_pickle {E : SendEnv} (n : Nat) (b : Bytes) : ∀ e ∈ [(Val.str encodeKey, Val.str "pickle"), (Val.str "pickle_str", Val.bytes b)], JUniform E n e.2 := by
  intro e he
  simp only [List.mem_cons, List.not_mem_nil, or_false] at he
  rcases he with rfl | rfl
  · exact juni_leaf _ _ trivial
  · exact juni_bytes _ _
theorem juni_dtype {E : SendEnv} (hty : ∀ ty ∈ defaultTypes, ty ∈ E.tys) (n : Nat) (d : DType) : JUniform E n (.dtype d) := by
  cases n with
  | zero => exact juni_zero _
  | succ n =>
    have hi : (Val.dtype d).isinstance E.tys = true := isinstance_default hty (by simp [Val.core])
    have : ∃ r, ∀ t, JVia E n t (.dtype d) = (t, r) := by
      cases hp : E.lib.pickleDumps (.dtype d) with
      | error e => exact jvia_uniform_error (e := e) (fun t => by simp only [jencode, Val.core, encode, hi, if_true, encodeValue, hp])
      | ok b => exact jvia_uniform (fun t => by simp only [jencode, Val.core, encode, hi, if_true, encodeValue, hp]) (juni_pickle n b)
    obtain ⟨r, hr⟩ := this
    exact ⟨r, fun t => by rw [jpack_unfold]; exact hr t⟩

theorem juni_proxyState {E : SendEnv} (n : Nat) (p : Proxy) : ∀ e ∈ (Val.str encodeKey, Val.str "proxy") :: p.getstate, JUniform E n e.2 := by
  intro e he
  simp only [Proxy.getstate, List.mem_cons, List.not_mem_nil, or_false] at he
  rcases he with rfl | rfl | rfl | rfl | rfl | rfl
  case inr.inr.inr.inr.inr =>
    refine juni_list (l := p.attrs.map .str) n ?_ _ (.inr rfl)
    intro n v hv
    obtain ⟨s, -, rfl⟩ := List.mem_map.1 hv
    exact juni_leaf _ _ trivial
  all_goals exact juni_leaf _ _ trivial

/-- A supported value through the hook, except objects: no table is involved. -/
theorem juni_hook {E : SendEnv} (hty : ∀ ty ∈ defaultTypes, ty ∈ E.tys) (n : Nat) {v : Val} (hp : JPackable E.lib E.tys v.core)
    (hc : match v.core with | .bytes _ | .datetime _ | .date _ | .ndarray _ | .npScalar _ | .proxy _ => True | _ => False) :
    ∃ r, ∀ t, JVia E n t v = (t, r) := by
  have inst := fun h => isinstance_default (v := v) hty h
  have leaf : ∀ v : Val, (match v.core with | .none | .bool _ | .int _ | .float _ | .str _ => True | _ => False) → JUniform E n v := juni_leaf n
  cases hu : v.core <;> simp only [hu] at hc inst
  case bytes b =>
    refine jvia_uniform (d := [(.str encodeKey, .str "bytes"), (.str "data", .str (String.ofList (b64encode b)))]) (fun t => by simp only [jencode, hu]) ?_
    intro e he
    simp only [List.mem_cons, List.not_mem_nil, or_false] at he
    rcases he with rfl | rfl <;> exact leaf _ trivial
  case ndarray a =>
    cases hd : (if a.cContiguous then a else a.ascontiguous).dataView with
    | error e => exact jvia_uniform_error (e := e) (fun t => by simp only [jencode, hu, hd])
    | ok data =>
      refine jvia_uniform (fun t => by simp only [jencode, hu, hd]; rfl) ?_
      intro e he
      simp only [List.mem_cons, List.not_mem_nil, or_false] at he
      rcases he with rfl | rfl | rfl | rfl
      · exact leaf _ trivial
      · exact leaf _ trivial
      · exact leaf _ trivial
      · refine juni_list n ?_ _ (.inr rfl)
        intro n v hv
        obtain ⟨s, -, rfl⟩ := List.mem_map.1 hv
        exact juni_leaf _ _ trivial
  case datetime d =>
    refine jvia_uniform (fun t => by simp only [jencode, hu, encode, inst trivial, if_true, encodeValue]; rfl) ?_
    intro e he
    simp only [List.mem_cons, List.not_mem_nil, or_false] at he
    rcases he with rfl | rfl <;> exact leaf _ trivial
  case date d =>
    refine jvia_uniform (fun t => by simp only [jencode, hu, encode, inst trivial, if_true, encodeValue]; rfl) ?_
    intro e he
    simp only [List.mem_cons, List.not_mem_nil, or_false] at he
    rcases he with rfl | rfl <;> exact leaf _ trivial
  case proxy p => exact jvia_uniform (fun t => by simp only [jencode, hu, encode, inst trivial, if_true, encodeValue]) (juni_proxyState n p)
  case npScalar s =>
    rw [hu] at hp
    simp only [JPackable] at hp
    have hi := inst hp.1
    have hx := hp.1
    unfold NpScalar.exact at hx
    have main : ∀ x, s.toPy E.lib = .ok x → (match x.core with | .none | .bool _ | .int _ | .float _ | .str _ => True | _ => False) →
        (match s.dtype.kind with | .other | .object => False | _ => True) → ∃ r, ∀ t, JVia E n t v = (t, r) := by
      intro x hx hl hk
      refine jvia_uniform (d := [(.str encodeKey, .str "np_number"), (.str "dtype", .dtype s.dtype), (.str "value", x)]) (fun t => ?_) ?_
      · simp only [jencode, hu, encode, hi, if_true, encodeValue]
        revert hk
        cases s.dtype.kind <;> simp [hx]
      · intro e he
        simp only [List.mem_cons, List.not_mem_nil, or_false] at he
        rcases he with rfl | rfl | rfl
        · exact leaf _ trivial
        · exact juni_dtype hty n _
        · exact leaf _ hl
    revert hx
    cases hk : s.dtype.kind <;> cases hv : s.val <;> simp only [false_imp_iff, true_imp_iff, implies_true]
    all_goals
      rw [hk] at main
      exact main _ (by simp only [NpScalar.toPy, hk, hv]; rfl) trivial trivial

/-! ## Factorization -/

/-- sending is replacing, then sending -/
def JFac (E : SendEnv) (addr : String) (n : Nat) : Prop :=
  ∀ t v t' w, JPackable E.lib E.tys v → jpack E n t v = (t', .ok w) →
    (jproxied E addr t v).1 = t' ∧ ∀ t2, jpack E n t2 (jproxied E addr t v).2 = (t2, .ok w)

theorem jfacL {E addr n} (hn : JFac E addr n) : ∀ (l : List Val) t t' ws, JPackableL E.lib E.tys l →
    mapS (jpack E n) t l = (t', .ok ws) →
    (jproxiedL E addr t l).1 = t' ∧ ∀ t2, mapS (jpack E n) t2 (jproxiedL E addr t l).2 = (t2, .ok ws)
  | [], t, t', ws, _, h => by
    simp only [mapS, Prod.mk.injEq, Except.ok.injEq] at h
    obtain ⟨rfl, rfl⟩ := h
    exact ⟨rfl, fun t2 => rfl⟩
  | v :: vs, t, t', ws, hp, h => by
    simp only [JPackableL] at hp
    simp only [mapS] at h
    split at h
    · simp at h
    · rename_i t1 w hw
      split at h
      · simp at h
      · rename_i t2 ws' hws
        simp only [Prod.mk.injEq, Except.ok.injEq] at h
        obtain ⟨rfl, rfl⟩ := h
        obtain ⟨a1, a2⟩ := hn _ _ _ _ hp.1 hw
        obtain ⟨b1, b2⟩ := jfacL hn vs _ _ _ hp.2 hws
        refine ⟨by simp only [jproxiedL, a1, b1], fun t3 => ?_⟩
        simp only [jproxiedL, mapS, a1, a2, b2]

theorem jfacD {E addr n} (hn : JFac E addr n) : ∀ (d : List (Val × Val)) t t' m,
    JPackableD E.lib E.tys d → mapS (jpair E.lib (jpack E n)) t d = (t', .ok m) →
    (jproxiedD E addr t d).1 = t' ∧ ∀ t2, mapS (jpair E.lib (jpack E n)) t2 (jproxiedD E addr t d).2 = (t2, .ok m)
  | [], t, t', ws, _, h => by
    simp only [mapS, Prod.mk.injEq, Except.ok.injEq] at h
    obtain ⟨rfl, rfl⟩ := h
    exact ⟨rfl, fun t2 => rfl⟩
  | (k, v) :: vs, t, t', ws, hp, h => by
    simp only [JPackableD] at hp
    simp only [mapS] at h
    split at h
    · simp at h
    · rename_i t1 kw hw
      split at h
      · simp at h
      · rename_i t2 ws' hws
        simp only [Prod.mk.injEq, Except.ok.injEq] at h
        obtain ⟨rfl, rfl⟩ := h
        simp only [jpair] at hw
        split at hw
        · simp at hw
        · rename_i s hk
          split at hw
          · simp at hw
          · rename_i t1' w hv
            simp only [Prod.mk.injEq, Except.ok.injEq] at hw
            obtain ⟨rfl, rfl⟩ := hw
            obtain ⟨a1, a2⟩ := hn _ _ _ _ hp.1 hv
            obtain ⟨b1, b2⟩ := jfacD hn vs _ _ _ hp.2 hws
            refine ⟨by simp only [jproxiedD, a1, b1], fun t3 => ?_⟩
            simp only [jproxiedD, mapS, jpair, hk, a1, a2, b2]

theorem jproxied_flat {E : SendEnv} {addr : String} : ∀ (v : Val) (t : Refs), v.jflattened = true →
    (jproxied E addr t v).2.core = (jproxied E addr t v.core).2 ∧ (jproxied E addr t v).1 = (jproxied E addr t v.core).1 ∧
    ((match v.core with | .list _ | .tuple _ | .dict _ => False | _ => True) → jproxied E addr t v = (t, v))
  | .sub c v, t, h => by
    have hf : v.jflattened = true := by simpa [Val.jflattened, Val.core] using h
    obtain ⟨h1, h2, h3⟩ := jproxied_flat (E := E) (addr := addr) v t hf
    simp only [jproxied, hf, if_true, Val.core, h1, h2, true_and]
    intro hc
    rw [h3 hc] at h2 ⊢
    simp [← h2]
  | .obj _ _, t, h | .dtype _, t, h => by simp [Val.jflattened, Val.core] at h
  | .list l, t, _ | .tuple l, t, _ | .dict l, t, _ => by simp [jproxied, Val.core]
  | .none, t, _ | .bool _, t, _ | .int _, t, _ | .float _, t, _ | .str _, t, _ | .bytes _, t, _ | .datetime _, t, _
  | .date _, t, _ | .ndarray _, t, _ | .npScalar _, t, _ | .proxy _, t, _ => by
    simp [jproxied, Val.core]

/-- **Factorization.** -/
theorem jfac {E : SendEnv} (hty : ∀ ty ∈ defaultTypes, ty ∈ E.tys) {addr : String}
    (ha : E.server = some addr) : ∀ n, JFac E addr n := by
  intro n
  induction n with
  | zero => intro t v t' w _ h; simp [jpack] at h
  | succ n ih =>
    intro t v t' w hp h
    have hns := fun c b => core_ne_sub c b v
    by_cases hf : v.jflattened = true
    · obtain ⟨hpc, -, -⟩ := jflat_core' (L := E.lib) (tys := E.tys) v hf
      have hpc := hpc hp
      obtain ⟨f1, f2, f3⟩ := jproxied_flat (E := E) (addr := addr) v t hf
      have hjf : (match v.core with | .dtype _ | .obj _ _ => false | _ => true) = true := hf
      -- values without a table
      have flat : (match v.core with | .list _ | .tuple _ | .dict _ => False | _ => True) → JUniform E (n + 1) v →
          (jproxied E addr t v).1 = t' ∧ ∀ t2, jpack E (n + 1) t2 (jproxied E addr t v).2 = (t2, .ok w) := by
        rintro hc ⟨r, hr⟩
        rw [hr t, Prod.mk.injEq] at h
        obtain ⟨rfl, rfl⟩ := h
        rw [f3 hc]
        exact ⟨rfl, hr⟩
      have hook := juni_hook hty n hpc
      cases hu : v.core <;> rw [hu] at f1 f2 hpc <;> simp only [hu] at flat hook hjf
      case sub c b => exact absurd hu (hns c b)
      case dtype => cases hjf
      case obj => cases hjf
      case none => exact flat trivial (juni_leaf _ _ (by rw [hu]; trivial))
      case bool => exact flat trivial (juni_leaf _ _ (by rw [hu]; trivial))
      case int => exact flat trivial (juni_leaf _ _ (by rw [hu]; trivial))
      case float => exact flat trivial (juni_leaf _ _ (by rw [hu]; trivial))
      case str => exact flat trivial (juni_leaf _ _ (by rw [hu]; trivial))
      case list l =>
        rw [jpack_unfold, hu] at h
        simp only at h
        simp only [JPackable] at hpc
        split at h
        · rename_i t1 ws hw
          simp only [Prod.mk.injEq, Except.ok.injEq] at h; obtain ⟨rfl, rfl⟩ := h
          obtain ⟨a, b⟩ := jfacL ih l _ _ _ hpc hw
          refine ⟨by rw [f2]; simp only [jproxied, a], fun t2 => ?_⟩
          rw [jpack_unfold, f1]
          simp only [jproxied, b]
        · simp at h
      case tuple l =>
        rw [jpack_unfold, hu] at h
        simp only at h
        simp only [JPackable] at hpc
        split at h
        · rename_i t1 ws hw
          simp only [Prod.mk.injEq, Except.ok.injEq] at h; obtain ⟨rfl, rfl⟩ := h
          obtain ⟨a, b⟩ := jfacL ih l _ _ _ hpc hw
          refine ⟨by rw [f2]; simp only [jproxied, a], fun t2 => ?_⟩
          rw [jpack_unfold, f1]
          simp only [jproxied, b]
        · simp at h
      case dict d =>
        rw [jpack_unfold, hu] at h
        simp only at h
        simp only [JPackable] at hpc
        split at h
        · rename_i t1 ws hw
          simp only [Prod.mk.injEq, Except.ok.injEq] at h; obtain ⟨rfl, rfl⟩ := h
          obtain ⟨a, b⟩ := jfacD ih d _ _ _ hpc.2 hw
          refine ⟨by rw [f2]; simp only [jproxied, a], fun t2 => ?_⟩
          rw [jpack_unfold, f1]
          simp only [jproxied, b]
        · simp at h
      case npScalar s =>
        refine flat trivial ?_
        obtain ⟨r, hr⟩ := hook trivial
        by_cases hs : ∃ f, s.dtype.kind = .floating ∧ s.dtype.itemsize = 8 ∧ s.val = .float f
        · obtain ⟨f, h1, h2, h3⟩ := hs
          exact ⟨.ok (.float f), fun t => by rw [jpack_unfold, hu]; simp only [h1, h2, h3]⟩
        · refine ⟨r, fun t => ?_⟩
          rw [jpack_unfold, hu]
          simp only
          split
          · rename_i f h1 h2 h3; exact absurd ⟨f, h1, h2, h3⟩ hs
          · exact hr t
      all_goals
        refine flat trivial ?_
        obtain ⟨r, hr⟩ := hook trivial
        exact ⟨r, fun t => by rw [jpack_unfold, hu]; exact hr t⟩
    · have hjf : (match v.core with | .dtype _ | .obj _ _ => false | _ => true) = false := Bool.eq_false_iff.2 hf
      have hun : ∀ (u : Val), (match u.core with | .dtype _ | .obj _ _ => false | _ => true) = false → ∀ t, jpack E (n + 1) t u = JVia E n t u ∧ jencode E t u = encode E t u := by
        intro u hj t
        rw [jpack_unfold]
        unfold jencode
        revert hj
        cases u.core <;> simp
      have hpr : ∀ t, jproxied E addr t v = if v.isinstance E.tys then (t, v) else handOne E addr t v := by
        intro t
        cases v with
        | sub c u =>
          have : u.jflattened = false := hjf
          simp only [jproxied, this, Bool.false_eq_true, if_false]
        | obj o ts => simp only [jproxied]
        | dtype d =>
          have hi : (Val.dtype d).isinstance E.tys = true := isinstance_default hty (by simp [Val.core])
          simp only [jproxied, hi, if_true]
        | _ => simp [Val.core] at hjf
      rw [(hun v hjf t).1] at h
      by_cases hi : v.isinstance E.tys = true
      · rw [hpr, if_pos hi]
        have hev : ∀ t, jencode E t v = (t, encodeValue E.lib v) := fun t => by rw [(hun v hjf t).2, encode, if_pos hi]
        have : ∃ r, ∀ t, JVia E n t v = (t, r) := by
          cases hb : E.lib.pickleDumps v with
          | error e =>
            refine jvia_uniform_error (e := e) fun t => ?_
            rw [hev, encodeValue]
            revert hjf
            cases v.core <;> simp [hb]
          | ok b =>
            refine jvia_uniform (d := [(.str encodeKey, .str "pickle"), (.str "pickle_str", .bytes b)]) (fun t => ?_) (juni_pickle n b)
            rw [hev, encodeValue]
            revert hjf
            cases v.core <;> simp [hb]
        obtain ⟨r, hr⟩ := this
        rw [hr t, Prod.mk.injEq] at h
        obtain ⟨rfl, rfl⟩ := h
        exact ⟨rfl, fun t2 => by rw [(hun v hjf t2).1]; exact hr t2⟩
      · rw [hpr, if_neg hi]
        obtain ⟨t3, oid, rid, hg⟩ := getProxy_succeeds E.idOf t (E.ident v)
        have he : jencode E t v = (t3, .ok ((.str encodeKey, .str "proxy") :: Proxy.getstate ⟨addr, oid, rid, E.typeStr v, []⟩)) := by
          rw [(hun v hjf t).2, encode, if_neg hi]
          simp only [ha, hg, encodeValue, Val.core]
        obtain ⟨r, hr⟩ := jmap_uniform (juni_proxyState (E := E) n ⟨addr, oid, rid, E.typeStr v, []⟩)
        have hip : (Val.proxy ⟨addr, oid, rid, E.typeStr v, []⟩).isinstance E.tys = true := isinstance_default hty (by simp [Val.core])
        have he2 : ∀ t2, jencode E t2 (.proxy ⟨addr, oid, rid, E.typeStr v, []⟩) =
            (t2, .ok ((.str encodeKey, .str "proxy") :: Proxy.getstate ⟨addr, oid, rid, E.typeStr v, []⟩)) := by
          intro t2
          simp only [jencode, Val.core, encode, hip, if_true, encodeValue]
        simp only [JVia, he, hr] at h
        simp only [handOne, hg]
        cases r with
        | error e => simp at h
        | ok m =>
          simp only [Prod.mk.injEq, Except.ok.injEq] at h
          obtain ⟨rfl, rfl⟩ := h
          refine ⟨rfl, fun t2 => ?_⟩
          rw [jpack_unfold]
          simp only [Val.core, JVia, he2, hr]

/-! ## What is replaced -/

mutual
theorem jproxied_fill {E : SendEnv} {addr : String} : ∀ (v : Val) (t : Refs),
    (jproxied E addr t v).1 = (handAll E addr t (jforeigns E.tys v)).1 ∧
    ∀ ps, jfill E.tys v ((handAll E addr t (jforeigns E.tys v)).2 ++ ps) = ((jproxied E addr t v).2, ps)
  | .list l, t => by
    obtain ⟨h1, h2⟩ := jproxiedL_fill (E := E) (addr := addr) l t
    simp only [jproxied, jforeigns, jfill, h1, h2]; simp
  | .tuple l, t => by
    obtain ⟨h1, h2⟩ := jproxiedL_fill (E := E) (addr := addr) l t
    simp only [jproxied, jforeigns, jfill, h1, h2]; simp
  | .dict l, t => by
    obtain ⟨h1, h2⟩ := jproxiedD_fill (E := E) (addr := addr) l t
    simp only [jproxied, jforeigns, jfill, h1, h2]; simp
  | .sub c v, t => by
    simp only [jproxied, jforeigns, jfill]
    split
    · obtain ⟨h1, h2⟩ := jproxied_fill (E := E) (addr := addr) v t
      simp only [h1, h2]; simp
    · split
      · simp [handAll]
      · simp [handAll, takeOne]
  | .obj o ts, t => by
    simp only [jproxied, jforeigns, jfill]
    split
    · simp [handAll]
    · simp [handAll, takeOne]
  | .none, t | .bool _, t | .int _, t | .float _, t | .str _, t | .bytes _, t | .datetime _, t
  | .date _, t | .ndarray _, t | .npScalar _, t | .dtype _, t | .proxy _, t => by
    simp [jproxied, jforeigns, jfill, handAll]
theorem jproxiedL_fill {E : SendEnv} {addr : String} : ∀ (l : List Val) (t : Refs),
    (jproxiedL E addr t l).1 = (handAll E addr t (jforeignsL E.tys l)).1 ∧
    ∀ ps, jfillL E.tys l ((handAll E addr t (jforeignsL E.tys l)).2 ++ ps) = ((jproxiedL E addr t l).2, ps)
  | [], t => by simp [jproxiedL, jforeignsL, jfillL, handAll]
  | v :: vs, t => by
    obtain ⟨h1, h2⟩ := jproxied_fill (E := E) (addr := addr) v t
    obtain ⟨h3, h4⟩ := jproxiedL_fill (E := E) (addr := addr) vs (jproxied E addr t v).1
    rw [h1] at h3 h4
    simp only [jproxiedL, jforeignsL, jfillL, handAll_append, List.append_assoc, h1, h2, h3, h4]; simp
theorem jproxiedD_fill {E : SendEnv} {addr : String} : ∀ (l : List (Val × Val)) (t : Refs),
    (jproxiedD E addr t l).1 = (handAll E addr t (jforeignsD E.tys l)).1 ∧
    ∀ ps, jfillD E.tys l ((handAll E addr t (jforeignsD E.tys l)).2 ++ ps) = ((jproxiedD E addr t l).2, ps)
  | [], t => by simp [jproxiedD, jforeignsD, jfillD, handAll]
  | (k, v) :: vs, t => by
    obtain ⟨h1, h2⟩ := jproxied_fill (E := E) (addr := addr) v t
    obtain ⟨h3, h4⟩ := jproxiedD_fill (E := E) (addr := addr) vs (jproxied E addr t v).1
    rw [h1] at h3 h4
    simp only [jproxiedD, jforeignsD, jfillD, handAll_append, List.append_assoc, h1, h2, h3, h4]; simp
end

mutual
/-- What is filled in is sendable. -/
theorem jsendable_proxied {E : SendEnv} {R : RecvEnv} {addr : String}
    (hg : ∀ t u, JSendable R (handOne E addr t u).2) : ∀ (v : Val) (t : Refs), JSendable R v → JSendable R (jproxied E addr t v).2
  | .list l, t, h => by simp only [JSendable, jproxied] at *; exact jsendableL_proxied hg l t h
  | .tuple l, t, h => by simp only [JSendable, jproxied] at *; exact jsendableL_proxied hg l t h
  | .dict d, t, h => by
    simp only [JSendable, jproxied] at *
    have hk := jproxiedD_keys (E := E) (addr := addr) d t
    have hm : ∀ e ∈ (jproxiedD E addr t d).2, ∃ e' ∈ d, e'.1 = e.1 := by
      intro e he
      have : e.1 ∈ d.map (·.1) := by rw [← hk]; exact List.mem_map.2 ⟨e, he, rfl⟩
      exact List.mem_map.1 this
    refine ⟨⟨?_, ?_, ?_⟩, jsendableD_proxied hg d t h.2⟩
    · intro e he
      obtain ⟨e', he', hee⟩ := hm e he
      rw [← hee]; exact h.1.1 e' he'
    · exact pairwise_keys (r := fun a b => jkey R.lib a ≠ jkey R.lib b) hk h.1.2.1
    · intro e he
      obtain ⟨e', he', hee⟩ := hm e he
      rw [← hee]; exact h.1.2.2 e' he'
  | .sub c v, t, h => by
    simp only [jproxied]
    split
    · rename_i hf
      simp only [JSendable] at *
      exact fun _ => jsendable_proxied hg v t (h hf)
    · split
      · exact h
      · exact hg _ _
  | .obj o ts, t, h => by
    simp only [jproxied]
    split
    · exact h
    · exact hg _ _
  | .none, t, h | .bool _, t, h | .int _, t, h | .float _, t, h | .str _, t, h | .bytes _, t, h | .datetime _, t, h
  | .date _, t, h | .ndarray _, t, h | .npScalar _, t, h | .dtype _, t, h | .proxy _, t, h => by
    simp only [jproxied]; exact h
theorem jsendableL_proxied {E : SendEnv} {R : RecvEnv} {addr : String}
    (hg : ∀ t u, JSendable R (handOne E addr t u).2) : ∀ (l : List Val) (t : Refs), JSendableL R l → JSendableL R (jproxiedL E addr t l).2
  | [], t, _ => by simp [JSendableL, jproxiedL]
  | v :: vs, t, h => by
    simp only [JSendableL, jproxiedL] at *
    exact ⟨jsendable_proxied hg v t h.1, jsendableL_proxied hg vs _ h.2⟩
theorem jsendableD_proxied {E : SendEnv} {R : RecvEnv} {addr : String}
    (hg : ∀ t u, JSendable R (handOne E addr t u).2) : ∀ (l : List (Val × Val)) (t : Refs), JSendableD R l → JSendableD R (jproxiedD E addr t l).2
  | [], t, _ => by simp [JSendableD, jproxiedD]
  | (k, v) :: vs, t, h => by
    simp only [JSendableD, jproxiedD] at *
    exact ⟨jsendable_proxied hg v t h.1, jsendableD_proxied hg vs _ h.2⟩
theorem jproxiedD_keys {E : SendEnv} {addr : String} : ∀ (l : List (Val × Val)) (t : Refs),
    (jproxiedD E addr t l).2.map (·.1) = l.map (·.1)
  | [], t => by simp [jproxiedD]
  | (k, v) :: vs, t => by simp only [jproxiedD, List.map_cons, jproxiedD_keys vs]
end

mutual
theorem not_jforeign_proxied {E : SendEnv} {addr : String} : ∀ (v : Val) (t : Refs),
    ¬ JForeign E.tys (jproxied E addr t v).2
  | .list l, t => by simp only [jproxied, JForeign]; exact not_jforeignL_proxied l t
  | .tuple l, t => by simp only [jproxied, JForeign]; exact not_jforeignL_proxied l t
  | .dict d, t => by simp only [jproxied, JForeign]; exact not_jforeignD_proxied d t
  | .sub c v, t => by
    simp only [jproxied]
    split
    · rename_i hf
      have h2 := (jproxied_flat (E := E) (addr := addr) v t hf).1
      have hff : (jproxied E addr t v).2.jflattened = true := by
        unfold Val.jflattened at hf ⊢
        rw [h2]
        have hns := fun c b => core_ne_sub c b v
        cases hc : v.core <;> rw [hc] at hf <;> simp_all [jproxied]
      simp only [JForeign, hff, if_true]
      exact not_jforeign_proxied v t
    · rename_i hf
      split
      · rename_i hi; simp only [JForeign, hf, hi]; simp
      · obtain ⟨t1, oid, rid, hg⟩ := getProxy_succeeds E.idOf t (E.ident (.sub c v))
        simp [handOne, hg, JForeign]
  | .obj o ts, t => by
    simp only [jproxied]
    split
    · rename_i hi; simp only [JForeign, hi]; simp
    · obtain ⟨t1, oid, rid, hg⟩ := getProxy_succeeds E.idOf t (E.ident (.obj o ts))
      simp [handOne, hg, JForeign]
  | .none, t | .bool _, t | .int _, t | .float _, t | .str _, t | .bytes _, t | .datetime _, t | .date _, t
  | .npScalar _, t | .ndarray _, t | .dtype _, t | .proxy _, t => by simp [jproxied, JForeign]
theorem not_jforeignL_proxied {E : SendEnv} {addr : String} : ∀ (l : List Val) (t : Refs),
    ¬ JForeignL E.tys (jproxiedL E addr t l).2
  | [], t => by simp [jproxiedL, JForeignL]
  | v :: vs, t => by
    simp only [jproxiedL, JForeignL, not_or]
    exact ⟨not_jforeign_proxied v t, not_jforeignL_proxied vs _⟩
theorem not_jforeignD_proxied {E : SendEnv} {addr : String} : ∀ (l : List (Val × Val)) (t : Refs),
    ¬ JForeignD E.tys (jproxiedD E addr t l).2
  | [], t => by simp [jproxiedD, JForeignD]
  | (k, v) :: vs, t => by
    simp only [jproxiedD, JForeignD, not_or]
    exact ⟨not_jforeign_proxied v t, not_jforeignD_proxied vs _⟩
end

end Verif
