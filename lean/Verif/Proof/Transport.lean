import Verif.Model.Unwrap
import Verif.Proof.JsonTotal
/-! # Transport of whole messages, from a reachable reference table -/
namespace Verif

theorem tableOk_of_reach {E : SendEnv} {h : RefHistory} {t : Refs} (hr : Reach E.idOf h t) (ha : Alive E h) :
    TableOk E t := by
  have hi := hr.inv
  refine ⟨fun oid o s hg => (hi.entry oid o s hg).2.2, hi.idInj, hi.idLt, ha.sent, ?_⟩
  intro oid o s hg u hu
  have hne := (hi.entry oid o s hg).1
  obtain ⟨r, hr'⟩ := List.exists_mem_of_ne_nil s hne
  exact ha.held ⟨oid, r, o⟩ ((hi.out _).2 ⟨s, hg, hr'⟩) u hu

mutual
theorem exact_arrives {E : SendEnv} {R : RecvEnv} {t : Refs} : ∀ v v', 
    Exact E.tys (fun p => received R p = .ok (.proxy p)) v → Arrives E.tys (ByProxy E R t) v v' → v' = v
  | .list l, v', hx, h => by
    simp only [Arrives, Exact] at h hx
    obtain ⟨l', rfl, h⟩ := h
    rw [exactL_arrives l l' hx h]
  | .tuple l, v', hx, h => by
    simp only [Arrives, Exact] at h hx
    obtain ⟨l', rfl, h⟩ := h
    rw [exactL_arrives l l' hx h]
  | .dict l, v', hx, h => by
    simp only [Arrives, Exact] at h hx
    obtain ⟨l', rfl, h⟩ := h
    rw [exactD_arrives l l' hx h]
  | .datetime d, v', hx, h => by
    simp only [Arrives, Exact] at h hx
    rw [h]; obtain ⟨y, mo, dd, hh, mi, s, us, tz, fold⟩ := d
    simp only at hx; rw [hx.1, hx.2]
  | .ndarray _, v', hx, h => by simp only [Exact] at hx
  | .proxy p, v', hx, h => by
    simp only [Arrives, Exact, ByProxy] at h hx
    rw [hx] at h; simpa using h.symm
  | .sub c u, v', hx, h => by
    simp only [Arrives, Exact] at h hx
    simpa [hx.1, hx.2] using h
  | .obj o ts, v', hx, h => by
    simp only [Arrives, Exact] at h hx
    simpa [hx] using h
  | .none, v', _, h | .bool _, v', _, h | .int _, v', _, h | .float _, v', _, h | .str _, v', _, h | .bytes _, v', _, h
  | .date _, v', _, h | .npScalar _, v', _, h | .dtype _, v', _, h => by simpa only [Arrives] using h
theorem exactL_arrives {E : SendEnv} {R : RecvEnv} {t : Refs} : ∀ l l', 
    ExactL E.tys (fun p => received R p = .ok (.proxy p)) l → ArrivesL E.tys (ByProxy E R t) l l' → l' = l
  | [], l', _, h => by simpa only [ArrivesL] using h
  | v :: vs, l', hx, h => by
    simp only [ArrivesL, ExactL] at h hx
    obtain ⟨v', vs', rfl, h1, h2⟩ := h
    rw [exact_arrives v v' hx.1 h1, exactL_arrives vs vs' hx.2 h2]
theorem exactD_arrives {E : SendEnv} {R : RecvEnv} {t : Refs} : ∀ l l', 
    ExactD E.tys (fun p => received R p = .ok (.proxy p)) l → ArrivesD E.tys (ByProxy E R t) l l' → l' = l
  | [], l', _, h => by simpa only [ArrivesD] using h
  | (k, v) :: vs, l', hx, h => by
    simp only [ArrivesD, ExactD] at h hx
    obtain ⟨v', vs', rfl, h1, h2⟩ := h
    rw [exact_arrives v v' hx.1 h1, exactD_arrives vs vs' hx.2 h2]
end

mutual
theorem jexact_arrives {L : Lib} {E : SendEnv} {R : RecvEnv} {t : Refs} : ∀ v v', 
    JExact E.tys (fun p => received R p = .ok (.proxy p)) v → JArrives L E.tys (ByProxy E R t) v v' → v' = jsonView v
  | .list l, v', hx, h => by
    simp only [JArrives, JExact] at h hx
    obtain ⟨l', rfl, h⟩ := h
    rw [jexactL_arrives l l' hx h]; simp only [jsonView]
  | .tuple l, v', hx, h => by
    simp only [JArrives, JExact] at h hx
    obtain ⟨l', rfl, h⟩ := h
    rw [jexactL_arrives l l' hx h]; simp only [jsonView]
  | .dict l, v', hx, h => by
    simp only [JArrives, JExact] at h hx
    obtain ⟨l', rfl, h⟩ := h
    rw [jexactD_arrives l l' hx h]; simp only [jsonView]
  | .datetime d, v', hx, h => by
    simp only [JArrives, JExact] at h hx
    rw [h]; obtain ⟨y, mo, dd, hh, mi, s, us, tz, fold⟩ := d
    simp only at hx; rw [hx.1, hx.2]; simp only [jsonView]
  | .ndarray _, v', hx, h => by simp only [JExact] at hx
  | .proxy p, v', hx, h => by
    simp only [JArrives, JExact, ByProxy] at h hx
    rw [hx] at h; simpa [jsonView] using h.symm
  | .sub c u, v', hx, h => by
    simp only [JArrives, JExact] at h hx
    simpa [hx.1, hx.2, jsonView] using h
  | .obj o ts, v', hx, h => by
    simp only [JArrives, JExact] at h hx
    simpa [hx, jsonView] using h
  | .npScalar s, v', _, h => by
    simp only [JArrives, jsonView] at h ⊢
    split at h <;> exact h
  | .none, v', _, h | .bool _, v', _, h | .int _, v', _, h | .float _, v', _, h | .str _, v', _, h | .bytes _, v', _, h
  | .date _, v', _, h | .dtype _, v', _, h => by simpa only [JArrives, jsonView] using h
theorem jexactL_arrives {L : Lib} {E : SendEnv} {R : RecvEnv} {t : Refs} : ∀ l l', 
    JExactL E.tys (fun p => received R p = .ok (.proxy p)) l → JArrivesL L E.tys (ByProxy E R t) l l' → l' = jsonViewL l
  | [], l', _, h => by simpa only [JArrivesL, jsonViewL] using h
  | v :: vs, l', hx, h => by
    simp only [JArrivesL, JExactL] at h hx
    obtain ⟨v', vs', rfl, h1, h2⟩ := h
    rw [jexact_arrives v v' hx.1 h1, jexactL_arrives vs vs' hx.2 h2]; simp only [jsonViewL]
theorem jexactD_arrives {L : Lib} {E : SendEnv} {R : RecvEnv} {t : Refs} : ∀ l l', 
    JExactD E.tys (fun p => received R p = .ok (.proxy p)) l → JArrivesD L E.tys (ByProxy E R t) l l' → l' = jsonViewD l
  | [], l', _, h => by simpa only [JArrivesD, jsonViewD] using h
  | (k, v) :: vs, l', hx, h => by
    simp only [JArrivesD, JExactD] at h hx
    obtain ⟨s, v', vs', rfl, h0, h1, h2⟩ := h
    obtain ⟨⟨s', rfl⟩, hx1, hx2⟩ := hx
    simp only [jkey, Val.core, Except.ok.injEq] at h0
    subst h0
    rw [jexact_arrives v v' hx1 h1, jexactD_arrives vs vs' hx2 h2]; simp only [jsonViewD]
end

theorem getattrs_ok_iff {ga : GetAttr} : ∀ {attrs : List String} {v x : Val},
    getattrs ga v attrs = .ok x ↔ AttrChain ga v attrs x
  | [], v, x => by
    simp only [getattrs, Except.ok.injEq]
    exact ⟨fun h => h ▸ .nil v, fun h => by cases h; rfl⟩
  | a :: as, v, x => by
    simp only [getattrs]
    constructor
    · intro h
      split at h
      · rename_i v' hv; exact .cons hv (getattrs_ok_iff.1 h)
      · simp at h
    · intro h
      cases h with
      | cons h1 h2 => rw [h1]; exact getattrs_ok_iff.2 h2

theorem getattrs_error_iff {ga : GetAttr} : ∀ {attrs : List String} {v : Val} {e : Exc},
    getattrs ga v attrs = .error e ↔ AttrRaises ga v attrs e
  | [], v, e => by
    simp only [getattrs, AttrRaises]
    constructor
    · intro h; simp at h
    · rintro ⟨pre, a, post, v', h, _⟩; simp at h
  | a :: as, v, e => by
    simp only [getattrs]
    constructor
    · intro h
      split at h
      · rename_i v' hv
        obtain ⟨pre, b, post, u, h1, h2, h3⟩ := getattrs_error_iff.1 h
        exact ⟨a :: pre, b, post, u, by simp [h1], .cons hv h2, h3⟩
      · rename_i e' hv
        simp only [Except.error.injEq] at h
        exact ⟨[], a, as, v, rfl, .nil v, by rw [hv, h]⟩
    · rintro ⟨pre, b, post, u, h1, h2, h3⟩
      cases h2 with
      | nil =>
        simp only [List.nil_append, List.cons.injEq] at h1
        rw [h1.1, h3]
      | cons g1 g2 =>
        simp only [List.cons_append, List.cons.injEq] at h1
        rw [h1.1, g1]
        exact getattrs_error_iff.2 ⟨_, b, post, u, h1.2, g2, h3⟩

theorem lookupStr_itemSet (d : List (Val × Val)) (s : String) (v : Val) (k : String) :
    lookupStr (itemSet d (.str s) v) k = if s = k then some v else lookupStr d k := by
  induction d with
  | nil => simp [itemSet, lookupStr]
  | cons e d ih =>
    obtain ⟨k', v'⟩ := e
    simp only [itemSet]
    split
    · rename_i h
      cases k' <;> simp [keyEq] at h
      subst h
      simp only [lookupStr]
      split <;> rfl
    · rename_i h
      cases k' <;> simp only [lookupStr, ih]
      rename_i s'
      have : s' ≠ s := by intro he; subst he; simp [keyEq] at h
      by_cases h1 : s' = k
      · subst h1; simp [this.symm]
      · simp [h1]

theorem lookupStr_foldl : ∀ (l acc : List (Val × Val)) (_ : ∀ e ∈ l, ∃ s, e.1 = .str s) (k : String),
    lookupStr (l.foldl (fun d kv => itemSet d kv.1 kv.2) acc) k =
      match lastStr l k with | some x => some x | none => lookupStr acc k
  | [], acc, _, k => by simp [lastStr]
  | (kk, v) :: l, acc, h, k => by
    obtain ⟨s, hs⟩ := h (kk, v) (by simp)
    simp only at hs
    subst hs
    simp only [List.foldl_cons]
    rw [lookupStr_foldl l _ (fun e he => h e (by simp [he])) k]
    simp only [lastStr, lookupStr_itemSet]
    cases lastStr l k <;> simp
    split <;> rfl

theorem lookupStr_dictOf {l : List (Val × Val)} (h : ∀ e ∈ l, ∃ s, e.1 = .str s) (k : String) :
    lookupStr (dictOf l) k = lastStr l k := by
  unfold dictOf
  rw [lookupStr_foldl l [] h k]
  cases lastStr l k <;> simp [lookupStr]

theorem jarrivesD_keys {L tys P} : ∀ {d d' : List (Val × Val)}, JArrivesD L tys P d d' →
    (∀ e ∈ d', ∃ s, e.1 = .str s ∧ ∃ e0 ∈ d, jkey L e0.1 = .ok s)
  | [], d', h => by simp only [JArrivesD] at h; simp [h]
  | (k, v) :: d, d', h => by
    simp only [JArrivesD] at h
    obtain ⟨s, v', vs', rfl, h1, _, h3⟩ := h
    intro e he
    simp only [List.mem_cons] at he
    rcases he with rfl | he
    · exact ⟨s, rfl, (k, v), by simp, h1⟩
    · obtain ⟨s2, g1, e0, g2, g3⟩ := jarrivesD_keys h3 e he
      exact ⟨s2, g1, e0, by simp [g2], g3⟩

theorem lastStr_none : ∀ {d : List (Val × Val)} {k : String}, (∀ e ∈ d, e.1 ≠ .str k) → lastStr d k = none
  | [], _, _ => rfl
  | (kk, v) :: d, k, h => by
    have h1 := h (kk, v) (by simp)
    have h2 := lastStr_none (d := d) (k := k) (fun e he => h e (by simp [he]))
    cases kk <;> simp only [lastStr, h2] 
    rename_i s
    split
    · rename_i hs; subst hs; exact absurd rfl h1
    · rfl

end Verif
