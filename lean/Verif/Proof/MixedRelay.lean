import Verif.Spec.MixedRelay
import Verif.Proof.Relay
/-! # Lemmas for C123 -/
namespace Verif

theorem PlainKeys.tail {e : Val × Val} {d : List (Val × Val)} (h : PlainKeys (e :: d)) :
    ∃ s, e.1 = .str s ∧ s ≠ encodeKey ∧ (∀ f ∈ d, f.1 ≠ .str s) ∧ PlainKeys d := by
  obtain ⟨names, h1, h2, h3⟩ := h
  cases names with
  | nil => simp at h1
  | cons s r =>
    simp only [List.map_cons, List.cons.injEq] at h1
    rw [List.nodup_cons] at h2
    simp only [List.mem_cons, not_or] at h3
    refine ⟨s, h1.1, fun he => h3.1 he.symm, ?_, r, h1.2, h2.2, h3.2⟩
    intro f hf he
    have : f.1 ∈ d.map (·.1) := List.mem_map_of_mem hf
    rw [h1.2, List.mem_map] at this
    obtain ⟨a, ha, hb⟩ := this
    rw [he] at hb
    simp only [Val.str.injEq] at hb
    exact h2.1 (hb ▸ ha)

theorem PlainKeys.mem : ∀ {d : List (Val × Val)}, PlainKeys d → ∀ e ∈ d, ∃ s, e.1 = .str s ∧ s ≠ encodeKey
  | [], _, _, he => by simp at he
  | f :: d, h, e, he => by
    obtain ⟨s, h1, h2, -, h4⟩ := h.tail
    rcases List.mem_cons.1 he with rfl | he
    · exact ⟨s, h1, h2⟩
    · exact h4.mem e he

theorem PlainKeys.keysOk {d : List (Val × Val)} (h : PlainKeys d) : KeysOk d := by
  refine ⟨fun e he => ?_, ?_, ?_⟩
  · obtain ⟨s, h1, -⟩ := h.mem e he; rw [h1]; rfl
  · induction d with
    | nil => exact .nil
    | cons e d ih =>
      obtain ⟨s, h1, -, h3, h4⟩ := h.tail
      refine .cons (fun f hf => ?_) (ih h4)
      obtain ⟨s', g1, -⟩ := h4.mem f hf
      have := h3 f hf
      rw [h1, g1]
      rw [g1] at this
      simp only [keyEq, decide_eq_false_iff_not]
      intro e; exact this (by rw [e])
  · induction d with
    | nil => rfl
    | cons e d ih =>
      obtain ⟨s, h1, h2, -, h4⟩ := h.tail
      obtain ⟨k, v⟩ := e
      simp only at h1; subst h1
      simp only [lookupStr]
      rw [if_neg h2]; exact ih h4

theorem PlainKeys.jkeysOk {L : Lib} {d : List (Val × Val)} (h : PlainKeys d) : JKeysOk L d := by
  refine ⟨fun e he => ?_, ?_, fun e he => ?_⟩
  · obtain ⟨s, h1, -⟩ := h.mem e he; rw [h1]; exact ⟨s, rfl⟩
  · induction d with
    | nil => exact .nil
    | cons e d ih =>
      obtain ⟨s, h1, -, h3, h4⟩ := h.tail
      refine .cons (fun f hf => ?_) (ih h4)
      obtain ⟨s', g1, -⟩ := h4.mem f hf
      have := h3 f hf
      rw [h1, g1]
      rw [g1] at this
      simp only [jkey, Val.core, ne_eq, Except.ok.injEq]
      intro e; exact this (by rw [e])
  · obtain ⟨s, h1, h2⟩ := h.mem e he
    rw [h1]; simpa only [jkey, Val.core, ne_eq, Except.ok.injEq] using h2

/-- What the two transport theorems ask of a value. -/
structure FitsBoth (L : Lib) (b : Hop) (v : Val) : Prop where
  s : Sendable b.receiver v
  p : Packable L b.sender.tys v
  x : Exact b.sender.tys (fun p => received b.receiver p = .ok (.proxy p)) v
  f : ¬ Foreign b.sender.tys v
  js : JSendable b.receiver v
  jp : JPackable L b.sender.tys v
  jx : JExact b.sender.tys (fun p => received b.receiver p = .ok (.proxy p)) v
  jf : ¬ JForeign b.sender.tys v

/-- The same for the items of a list. -/
structure FitsBothL (L : Lib) (b : Hop) (v : List Val) : Prop where
  s : SendableL b.receiver v
  p : PackableL L b.sender.tys v
  x : ExactL b.sender.tys (fun p => received b.receiver p = .ok (.proxy p)) v
  f : ¬ ForeignL b.sender.tys v
  js : JSendableL b.receiver v
  jp : JPackableL L b.sender.tys v
  jx : JExactL b.sender.tys (fun p => received b.receiver p = .ok (.proxy p)) v
  jf : ¬ JForeignL b.sender.tys v

/-- The same for the values of a dict. -/
structure FitsBothD (L : Lib) (b : Hop) (v : List (Val × Val)) : Prop where
  s : SendableD b.receiver v
  p : PackableD L b.sender.tys v
  x : ExactD b.sender.tys (fun p => received b.receiver p = .ok (.proxy p)) v
  f : ¬ ForeignD b.sender.tys v
  js : JSendableD b.receiver v
  jp : JPackableD L b.sender.tys v
  jx : JExactD b.sender.tys (fun p => received b.receiver p = .ok (.proxy p)) v
  jf : ¬ JForeignD b.sender.tys v

mutual
theorem common_fits {L : Lib} {tys : List Ty} {Q : Proxy → Prop} {b : Hop} (hL : b.receiver.lib = L)
    (hty : ∀ ty ∈ tys, ty ∈ b.sender.tys) (hQ : ∀ p, Q p → received b.receiver p = .ok (.proxy p)) :
    ∀ v, Common L tys Q v → FitsBoth L b v
  | .list l, h => by
    simp only [Common] at h
    have g := commonL_fits hL hty hQ l h
    exact ⟨by simpa only [Sendable] using g.s, by simpa only [Packable] using g.p, by simpa only [Exact] using g.x,
      by simpa only [Foreign] using g.f, by simpa only [JSendable] using g.js, by simpa only [JPackable] using g.jp,
      by simpa only [JExact] using g.jx, by simpa only [JForeign] using g.jf⟩
  | .tuple l, h => by
    simp only [Common] at h
    have g := commonL_fits hL hty hQ l h
    exact ⟨by simpa only [Sendable] using g.s, by simpa only [Packable] using g.p, by simpa only [Exact] using g.x,
      by simpa only [Foreign] using g.f, by simpa only [JSendable] using g.js, by simpa only [JPackable] using g.jp,
      by simpa only [JExact] using g.jx, by simpa only [JForeign] using g.jf⟩
  | .dict d, h => by
    simp only [Common] at h
    have g := commonD_fits hL hty hQ d h.1 h.2
    exact ⟨by simpa only [Sendable] using ⟨h.1.keysOk, g.s⟩,
      by simpa only [Packable] using ⟨h.1.keysOk.1, g.p⟩, by simpa only [Exact] using g.x,
      by simpa only [Foreign] using g.f, by simpa only [JSendable] using ⟨h.1.jkeysOk, g.js⟩,
      by simpa only [JPackable] using ⟨(h.1.jkeysOk (L := L)).1, g.jp⟩,
      by simpa only [JExact] using g.jx, by simpa only [JForeign] using g.jf⟩
  | .datetime d, h => by
    simp only [Common] at h
    constructor <;> simp only [Sendable, Packable, Exact, Foreign, JSendable, JPackable, JExact, JForeign, hL, h, and_self, not_false_eq_true]
  | .date d, h => by
    simp only [Common] at h
    constructor <;> simp only [Sendable, Packable, Exact, Foreign, JSendable, JPackable, JExact, JForeign, hL, h, and_self, not_false_eq_true]
  | .npScalar d, h => by
    simp only [Common] at h
    constructor <;> simp only [Sendable, Packable, Exact, Foreign, JSendable, JPackable, JExact, JForeign, hL, h, and_self, not_false_eq_true]
  | .dtype d, h => by
    simp only [Common] at h
    constructor <;> simp only [Sendable, Packable, Exact, Foreign, JSendable, JPackable, JExact, JForeign, h, not_false_eq_true]
  | .ndarray a, h => by simp only [Common] at h
  | .proxy p, h => by
    simp only [Common] at h
    have := hQ p h
    constructor <;> simp only [Sendable, Packable, Exact, Foreign, JSendable, JPackable, JExact, JForeign, this, not_false_eq_true,
      Except.ok.injEq, exists_eq']
  | .sub c v, h => by
    simp only [Common] at h
    obtain ⟨h1, h2, h3, b, h4⟩ := h
    have h3 := isinstance_mono hty h3
    constructor <;> simp [Sendable, Packable, Exact, Foreign, JSendable, JPackable, JExact, JForeign, h1, h2, h3, h4]
  | .obj o ts, h => by
    simp only [Common] at h
    obtain ⟨h3, b, h4⟩ := h
    have h3 := isinstance_mono hty h3
    constructor <;> simp [Sendable, Packable, Exact, Foreign, JSendable, JPackable, JExact, JForeign, h3, h4]
  | .none, _ | .bool _, _ | .int _, _ | .float _, _ | .str _, _ | .bytes _, _ => by
    constructor <;> simp only [Sendable, Packable, Exact, Foreign, JSendable, JPackable, JExact, JForeign, not_false_eq_true]
theorem commonL_fits {L : Lib} {tys : List Ty} {Q : Proxy → Prop} {b : Hop} (hL : b.receiver.lib = L)
    (hty : ∀ ty ∈ tys, ty ∈ b.sender.tys) (hQ : ∀ p, Q p → received b.receiver p = .ok (.proxy p)) :
    ∀ l, CommonL L tys Q l → FitsBothL L b l
  | [], _ => by
    constructor <;> simp only [SendableL, PackableL, ExactL, ForeignL, JSendableL, JPackableL, JExactL, JForeignL, not_false_eq_true]
  | v :: vs, h => by
    simp only [CommonL] at h
    have g := common_fits hL hty hQ v h.1
    have gs := commonL_fits hL hty hQ vs h.2
    exact ⟨by simpa only [SendableL] using ⟨g.s, gs.s⟩, by simpa only [PackableL] using ⟨g.p, gs.p⟩,
      by simpa only [ExactL] using ⟨g.x, gs.x⟩,
      by simpa only [ForeignL, not_or] using ⟨g.f, gs.f⟩, by simpa only [JSendableL] using ⟨g.js, gs.js⟩,
      by simpa only [JPackableL] using ⟨g.jp, gs.jp⟩,
      by simpa only [JExactL] using ⟨g.jx, gs.jx⟩, by simpa only [JForeignL, not_or] using ⟨g.jf, gs.jf⟩⟩
theorem commonD_fits {L : Lib} {tys : List Ty} {Q : Proxy → Prop} {b : Hop} (hL : b.receiver.lib = L)
    (hty : ∀ ty ∈ tys, ty ∈ b.sender.tys) (hQ : ∀ p, Q p → received b.receiver p = .ok (.proxy p)) :
    ∀ d, PlainKeys d → CommonD L tys Q d → FitsBothD L b d
  | [], _, _ => by
    constructor <;> simp only [SendableD, PackableD, ExactD, ForeignD, JSendableD, JPackableD, JExactD, JForeignD, not_false_eq_true]
  | (k, v) :: vs, hk, h => by
    simp only [CommonD] at h
    obtain ⟨s, h1, -, -, h4⟩ := hk.tail
    have g := common_fits hL hty hQ v h.1
    have gs := commonD_fits hL hty hQ vs h4 h.2
    exact ⟨by simpa only [SendableD] using ⟨g.s, gs.s⟩, by simpa only [PackableD] using ⟨g.p, gs.p⟩,
      by simpa only [ExactD] using ⟨g.x, gs.x⟩,
      by simpa only [ForeignD, not_or] using ⟨g.f, gs.f⟩, by simpa only [JSendableD] using ⟨g.js, gs.js⟩,
      by simpa only [JPackableD] using ⟨g.jp, gs.jp⟩,
      by simpa only [JExactD] using ⟨⟨s, h1⟩, g.jx, gs.jx⟩, by simpa only [JForeignD, not_or] using ⟨g.jf, gs.jf⟩⟩
end

theorem jsonViewD_keys : ∀ d : List (Val × Val), (jsonViewD d).map (·.1) = d.map (·.1)
  | [] => rfl
  | (k, v) :: vs => by simp only [jsonViewD, List.map_cons, jsonViewD_keys vs]

/-- A numpy scalar by JSON is a plain float or itself. -/
theorem jsonView_npScalar (s : NpScalar) : (∃ f, jsonView (.npScalar s) = .float f) ∨ jsonView (.npScalar s) = .npScalar s := by
  simp only [jsonView]
  split
  · exact .inl ⟨_, rfl⟩
  · exact .inr rfl

mutual
theorem common_jsonView {L : Lib} {tys : List Ty} {Q : Proxy → Prop} : ∀ v, Common L tys Q v →
    Common L tys Q (jsonView v) ∧ (jsonView v).depth ≤ v.depth ∧ (jsonView v).jdepth ≤ v.jdepth ∧
      jsonView (jsonView v) = jsonView v
  | .list l, h => by
    simp only [Common] at h
    obtain ⟨g1, g2, g3, g4⟩ := commonL_jsonView l h
    simp only [jsonView, Common, Val.depth, Val.jdepth, g4, and_true]
    exact ⟨g1, by omega, by omega⟩
  | .tuple l, h => by
    simp only [Common] at h
    obtain ⟨g1, g2, g3, g4⟩ := commonL_jsonView l h
    simp only [jsonView, Common, Val.depth, Val.jdepth, g4, and_true]
    exact ⟨g1, by omega, by omega⟩
  | .dict d, h => by
    simp only [Common] at h
    obtain ⟨g1, g2, g3, g4⟩ := commonD_jsonView d h.2
    simp only [jsonView, Common, Val.depth, Val.jdepth, g4, and_true]
    refine ⟨⟨?_, g1⟩, by omega, by omega⟩
    obtain ⟨names, k1, k2⟩ := h.1
    exact ⟨names, by rw [jsonViewD_keys]; exact k1, k2⟩
  | .npScalar s, h => by
    rcases jsonView_npScalar s with ⟨f, e⟩ | e
    · rw [e]; simp [Common, Val.depth, Val.jdepth, jsonView]
    · rw [e]; exact ⟨h, Nat.le_refl _, Nat.le_refl _, e⟩
  | .datetime _, h | .date _, h | .dtype _, h | .ndarray _, h | .proxy _, h | .sub _ _, h | .obj _ _, h
  | .none, h | .bool _, h | .int _, h | .float _, h | .str _, h | .bytes _, h => by
    simp only [jsonView, Nat.le_refl, and_true]; exact h
theorem commonL_jsonView {L : Lib} {tys : List Ty} {Q : Proxy → Prop} : ∀ l, CommonL L tys Q l →
    CommonL L tys Q (jsonViewL l) ∧ depthL (jsonViewL l) ≤ depthL l ∧ jdepthL (jsonViewL l) ≤ jdepthL l ∧
      jsonViewL (jsonViewL l) = jsonViewL l
  | [], _ => by simp [CommonL, depthL, jdepthL, jsonViewL]
  | v :: vs, h => by
    simp only [CommonL] at h
    obtain ⟨g1, g2, g3, g4⟩ := common_jsonView v h.1
    obtain ⟨k1, k2, k3, k4⟩ := commonL_jsonView vs h.2
    simp only [CommonL, depthL, jdepthL, jsonViewL, g4, k4, and_true]
    exact ⟨⟨g1, k1⟩, by omega, by omega⟩
theorem commonD_jsonView {L : Lib} {tys : List Ty} {Q : Proxy → Prop} : ∀ d, CommonD L tys Q d →
    CommonD L tys Q (jsonViewD d) ∧ depthD (jsonViewD d) ≤ depthD d ∧ jdepthD (jsonViewD d) ≤ jdepthD d ∧
      jsonViewD (jsonViewD d) = jsonViewD d
  | [], _ => by simp [CommonD, depthD, jdepthD, jsonViewD]
  | (k, v) :: vs, h => by
    simp only [CommonD] at h
    obtain ⟨g1, g2, g3, g4⟩ := common_jsonView v h.1
    obtain ⟨k1, k2, k3, k4⟩ := commonD_jsonView vs h.2
    simp only [CommonD, depthD, jdepthD, jsonViewD, g4, k4, and_true]
    exact ⟨⟨g1, k1⟩, by omega, by omega⟩
end

end Verif
