import Verif.Spec.Refs
/-! # Invariant of the reference table -/
namespace Verif

@[simp] theorem outstanding_nil : outstanding [] = [] := rfl

theorem outstanding_append_get (h : RefHistory) (o k oid rid) :
    outstanding (h ++ [(.get o k, .proxy oid rid)]) = outstanding h ++ [⟨oid, rid, o⟩] := by
  simp [outstanding]

theorem outstanding_append_del (h : RefHistory) (oid rid) :
    outstanding (h ++ [(.delete oid rid, .deleted)]) =
      (outstanding h).filter (fun x => ¬ (x.oid = oid ∧ x.rid = rid)) := by
  simp [outstanding]

theorem outstanding_append_raised (h : RefHistory) (op e) :
    outstanding (h ++ [(op, .raised e)]) = outstanding h := by
  cases op <;> simp [outstanding]

theorem handedOut_append (h : RefHistory) (e) : handedOut (h ++ [e]) = handedOut h ++ handedBy e := by
  simp [handedOut]

structure Inv (idOf : Obj → Nat) (h : RefHistory) (t : Refs) : Prop where
  entry : ∀ oid o s, t.refs.get? oid = some (o, s) →
    s ≠ [] ∧ s.Nodup ∧ t.idMap.get? (idOf o) = some oid
  idInj : ∀ a b n, t.idMap.get? a = some n → t.idMap.get? b = some n → a = b
  idLt : ∀ a n, t.idMap.get? a = some n → n < t.nextOid
  out : ∀ x, x ∈ outstanding h ↔ ∃ s, t.refs.get? x.oid = some (x.obj, s) ∧ x.rid ∈ s
  handed : ∀ x ∈ handedOut h, x.rid < t.nextRid ∧ x.oid < t.nextOid ∧
    (∀ o s, t.refs.get? x.oid = some (o, s) → o = x.obj) ∧
    (t.refs.get? x.oid = none → ∀ a, t.idMap.get? a ≠ some x.oid)
  handedUniq : ∀ x ∈ handedOut h, ∀ y ∈ handedOut h, x.oid = y.oid → x.obj = y.obj
  ridsNodup : ((handedOut h).map (·.rid)).Nodup
  sub : ∀ x ∈ outstanding h, x ∈ handedOut h

theorem Inv.init (idOf) : Inv idOf [] Refs.init := by
  constructor <;> simp [Refs.init, handedOut]

theorem mem_setAdd {s : List Nat} {r x : Nat} : x ∈ setAdd s r ↔ x ∈ s ∨ x = r := by
  unfold setAdd; split
  · constructor
    · exact Or.inl
    · rintro (h | rfl)
      · exact h
      · assumption
  · simp

theorem nodup_setAdd {s : List Nat} {r : Nat} (h : s.Nodup) : (setAdd s r).Nodup := by
  unfold setAdd; split
  · exact h
  · rename_i hr
    rw [List.nodup_append]
    refine ⟨h, by simp, ?_⟩
    intro a ha b hb; simp at hb; subst hb; rintro rfl; exact hr ha

/-- facts about `getObjectId` -/
theorem getObjectId_spec (idOf) (t : Refs) (o : Obj) :
    (t.getObjectId idOf o).1.refs = t.refs ∧ (t.getObjectId idOf o).1.nextRid = t.nextRid ∧
    (t.getObjectId idOf o).1.idMap.get? (idOf o) = some (t.getObjectId idOf o).2 ∧
    ((t.idMap.get? (idOf o) = none ∧ (t.getObjectId idOf o).2 = t.nextOid ∧
        (t.getObjectId idOf o).1.nextOid = t.nextOid + 1 ∧
        (∀ a, a ≠ idOf o → (t.getObjectId idOf o).1.idMap.get? a = t.idMap.get? a))
     ∨ (t.idMap.get? (idOf o) = some (t.getObjectId idOf o).2 ∧ (t.getObjectId idOf o).1 = t)) := by
  unfold Refs.getObjectId
  split
  · rename_i hn
    refine ⟨rfl, rfl, by simp, Or.inl ⟨hn, rfl, rfl, ?_⟩⟩
    intro a ha
    simp [Dict.get?_set, Ne.symm ha]
  · rename_i oid hs
    exact ⟨rfl, rfl, by simpa using hs, Or.inr ⟨hs, rfl⟩⟩


/-- key fact: the id chosen for `o` either maps to an entry for `o` itself or is unused by any proxy -/
theorem Inv.chosen {idOf h t} (hI : Inv idOf h t) {o : Obj}
    (hd : ∀ x ∈ outstanding h, idOf x.obj = idOf o → x.obj = o) (oid : Nat)
    (hoid : (t.idMap.get? (idOf o) = none ∧ oid = t.nextOid) ∨ t.idMap.get? (idOf o) = some oid) :
    (∃ s, t.refs.get? oid = some (o, s)) ∨
    (t.refs.get? oid = none ∧ ∀ x ∈ handedOut h, x.oid ≠ oid) := by
  cases hr : t.refs.get? oid with
  | none =>
    refine Or.inr ⟨rfl, ?_⟩
    rintro x hx rfl
    have := hI.handed x hx
    rcases hoid with ⟨_, ho⟩ | ho
    · omega
    · exact this.2.2.2 hr _ ho
  | some p =>
    obtain ⟨o', s⟩ := p
    have he := hI.entry _ _ _ hr
    rcases hoid with ⟨_, ho⟩ | ho
    · have := hI.idLt _ _ he.2.2; omega
    · have hid := hI.idInj _ _ _ he.2.2 ho
      obtain ⟨r, hr'⟩ := List.exists_mem_of_ne_nil _ he.1
      have := hd ⟨oid, r, o'⟩ ((hI.out _).2 ⟨s, hr, hr'⟩) hid
      simp at this; subst this
      exact Or.inl ⟨s, rfl⟩

theorem Inv.get {idOf h t} (hI : Inv idOf h t) (o : Obj) (kwds : List String)
    (hd : IdsDistinct idOf h (.get o kwds)) :
    Inv idOf (h ++ [(.get o kwds, (t.step idOf (.get o kwds)).2)]) (t.step idOf (.get o kwds)).1 := by
  have hs := getObjectId_spec idOf { t with nextRid := t.nextRid + 1 } o
  have hch := fun oid => hI.chosen (o := o) hd oid
  simp only [Refs.step, Refs.getProxy]
  generalize hg : Refs.getObjectId idOf { t with nextRid := t.nextRid + 1 } o = g at *
  obtain ⟨t2, oid⟩ := g
  simp only at hs hch ⊢
  obtain ⟨h1, h2, h3, h4⟩ := hs
  have hoid : (t.idMap.get? (idOf o) = none ∧ oid = t.nextOid) ∨ t.idMap.get? (idOf o) = some oid := by
    rcases h4 with ⟨a, b, _⟩ | ⟨a, _⟩
    · exact Or.inl ⟨a, b⟩
    · exact Or.inr a
  have hch := hch oid hoid
  have hmono : t.nextOid ≤ t2.nextOid := by
    rcases h4 with ⟨_, _, c, _⟩ | ⟨_, c⟩
    · omega
    · subst c; simp
  have hlt2 : oid < t2.nextOid := by
    rcases h4 with ⟨_, b, c, _⟩ | ⟨a, c⟩
    · omega
    · subst c; exact hI.idLt _ _ a
  -- id map of t2
  have hm : ∀ a n, t2.idMap.get? a = some n ↔ (a = idOf o ∧ n = oid) ∨ (a ≠ idOf o ∧ t.idMap.get? a = some n) := by
    intro a n
    by_cases ha : a = idOf o
    · subst ha; simp [h3, eq_comm]
    · simp only [ha, false_and, false_or, ne_eq, not_false_eq_true, true_and]
      rcases h4 with ⟨_, _, _, d⟩ | ⟨_, c⟩
      · rw [d a ha]
      · subst c; rfl
  have hfreshid : ∀ a, a ≠ idOf o → t.idMap.get? a ≠ some oid := by
    intro a ha hc
    rcases hoid with ⟨_, b⟩ | b
    · have := hI.idLt _ _ hc; omega
    · exact ha (hI.idInj _ _ _ hc b)
  have hidInj : ∀ a b n, t2.idMap.get? a = some n → t2.idMap.get? b = some n → a = b := by
    intro a b n ha hb
    rcases (hm a n).1 ha with ⟨e1, e2⟩ | ⟨e1, e2⟩ <;> rcases (hm b n).1 hb with ⟨e3, e4⟩ | ⟨e3, e4⟩
    · rw [e1, e3]
    · subst e2; exact absurd e4 (hfreshid _ e3)
    · subst e4; exact absurd e2 (hfreshid _ e1)
    · exact hI.idInj _ _ _ e2 e4
  have hidLt : ∀ a n, t2.idMap.get? a = some n → n < t2.nextOid := by
    intro a n ha
    rcases (hm a n).1 ha with ⟨e1, e2⟩ | ⟨e1, e2⟩
    · omega
    · have := hI.idLt _ _ e2; omega
  have hentry2 : ∀ oid' o' s, t.refs.get? oid' = some (o', s) →
      s ≠ [] ∧ s.Nodup ∧ t2.idMap.get? (idOf o') = some oid' := by
    intro oid' o' s hh
    have he := hI.entry _ _ _ hh
    refine ⟨he.1, he.2.1, (hm _ _).2 ?_⟩
    by_cases ho : idOf o' = idOf o
    · left; refine ⟨ho, ?_⟩
      rcases hoid with ⟨a, _⟩ | a
      · rw [ho] at he; simp [he.2.2] at a
      · rw [ho] at he; simpa [he.2.2] using a
    · right; exact ⟨ho, he.2.2⟩
  by_cases hk : kwds.all (· ∈ optionNames) = true
  · rw [if_pos hk]
    simp only [h1]
    -- the entry after the update
    have hent : ∃ s0, (t.refs.get? oid).getD (o, []) = (o, s0) ∧
        (∀ r, r ∈ s0 ↔ ∃ s, t.refs.get? oid = some (o, s) ∧ r ∈ s) ∧ s0.Nodup ∧
        (∀ o' s, t.refs.get? oid = some (o', s) → o' = o ∧ s = s0) := by
      rcases hch with ⟨s, hs⟩ | ⟨hn, _⟩
      · exact ⟨s, by simp [hs], by simp [hs], (hI.entry _ _ _ hs).2.1, by simp only [hs, Option.some.injEq, Prod.mk.injEq]; rintro _ _ ⟨rfl, rfl⟩; exact ⟨rfl, rfl⟩⟩
      · exact ⟨[], by simp [hn], by simp [hn], by simp, by simp [hn]⟩
    obtain ⟨s0, e1, e2, e3, e4⟩ := hent
    simp only [e1]
    constructor
    · intro oid' o' s hh
      rw [Dict.get?_set] at hh
      split at hh
      · simp only [Option.some.injEq, Prod.mk.injEq] at hh
        obtain ⟨rfl, rfl⟩ := hh
        subst_vars
        refine ⟨?_, nodup_setAdd e3, h3⟩
        intro hc
        have : t.nextRid ∈ setAdd s0 t.nextRid := mem_setAdd.2 (Or.inr rfl)
        rw [hc] at this; simp at this
      · exact hentry2 _ _ _ hh
    · exact hidInj
    · exact hidLt
    · intro x
      rw [outstanding_append_get, List.mem_append, hI.out, Dict.get?_set]
      by_cases hx : oid = x.oid
      · simp only [hx, if_true, List.mem_singleton]
        constructor
        · rintro (⟨s, hs, hr⟩ | hxe)
          · rw [← hx] at hs
            obtain ⟨ho, hs0⟩ := e4 _ _ hs
            rw [ho, ← hs0]
            exact ⟨_, rfl, mem_setAdd.2 (Or.inl hr)⟩
          · rw [hxe]; exact ⟨_, rfl, mem_setAdd.2 (Or.inr rfl)⟩
        · rintro ⟨s, hs, hr⟩
          simp only [Option.some.injEq, Prod.mk.injEq] at hs
          obtain ⟨ho, rfl⟩ := hs
          rcases mem_setAdd.1 hr with hr | hr
          · left; rw [← hx, ← ho]; exact (e2 _).1 hr
          · right; obtain ⟨xa, xb, xc⟩ := x; simp only at hr ho ⊢; rw [hr, ho]
      · simp only [hx, if_false, List.mem_singleton]
        constructor
        · rintro (hh | rfl)
          · exact hh
          · simp at hx
        · exact Or.inl
    · intro x hx
      rw [handedOut_append] at hx
      simp only [handedBy, List.mem_append, List.mem_singleton] at hx
      simp only [h2]
      rcases hx with hx | rfl
      · have hh := hI.handed x hx
        refine ⟨by omega, by omega, ?_, ?_⟩
        · intro o' s
          rw [Dict.get?_set]
          split
          · intro he
            simp only [Option.some.injEq, Prod.mk.injEq] at he
            rcases hch with ⟨s', hs'⟩ | ⟨_, hn⟩
            · rw [← he.1]; subst_vars; exact hh.2.2.1 _ _ hs'
            · subst_vars; exact absurd rfl (hn x hx)
          · exact hh.2.2.1 o' s
        · rw [Dict.get?_set]
          split
          · simp
          · rename_i hne
            intro hn a ha
            rcases (hm a _).1 ha with ⟨_, e⟩ | ⟨_, e⟩
            · exact hne e.symm
            · exact hh.2.2.2 hn _ e
      · refine ⟨by simp, hlt2, ?_, ?_⟩
        · intro o' s; simp; intro a _; exact a.symm
        · simp
    · intro x hx y hy hxy
      rw [handedOut_append] at hx hy
      simp only [handedBy, List.mem_append, List.mem_singleton] at hx hy
      have key : ∀ z ∈ handedOut h, z.oid = oid → z.obj = o := by
        intro z hz hzo
        rcases hch with ⟨s', hs'⟩ | ⟨_, hn⟩
        · subst hzo; exact ((hI.handed z hz).2.2.1 _ _ hs').symm
        · exact absurd hzo (hn z hz)
      rcases hx with hx | rfl <;> rcases hy with hy | rfl
      · exact hI.handedUniq x hx y hy hxy
      · exact key x hx hxy
      · exact (key y hy hxy.symm).symm
      · rfl
    · rw [handedOut_append]
      simp only [handedBy, List.map_append, List.map_cons, List.map_nil]
      rw [List.nodup_append]
      refine ⟨hI.ridsNodup, by simp, ?_⟩
      intro a ha b hb
      simp only [List.mem_map] at ha
      obtain ⟨x, hx, rfl⟩ := ha
      simp at hb; subst hb
      have := (hI.handed x hx).1; omega
    · intro x hx
      rw [outstanding_append_get] at hx
      rw [handedOut_append]
      simp only [handedBy, List.mem_append] at hx ⊢
      rcases hx with hx | hx
      · exact Or.inl (hI.sub x hx)
      · exact Or.inr hx
  · rw [if_neg hk]
    simp only
    constructor
    · rw [h1]; exact hentry2
    · exact hidInj
    · exact hidLt
    · intro x; rw [outstanding_append_raised, h1]; exact hI.out x
    · intro x hx
      rw [handedOut_append] at hx
      simp only [handedBy, List.append_nil] at hx
      have hh := hI.handed x hx
      refine ⟨by omega, by omega, ?_, ?_⟩
      · rw [h1]; exact hh.2.2.1
      · rw [h1]
        intro hn a ha
        rcases (hm a _).1 ha with ⟨_, e⟩ | ⟨_, e⟩
        · rcases hch with ⟨s', hs'⟩ | ⟨_, hn'⟩
          · rw [← e] at hs'; simp [hs'] at hn
          · exact hn' x hx e
        · exact hh.2.2.2 hn _ e
    · intro x hx y hy hxy
      rw [handedOut_append] at hx hy
      simp only [handedBy, List.append_nil] at hx hy
      exact hI.handedUniq x hx y hy hxy
    · rw [handedOut_append]; simpa [handedBy] using hI.ridsNodup
    · intro x hx
      rw [outstanding_append_raised] at hx
      rw [handedOut_append]
      simpa [handedBy] using hI.sub x hx

theorem Inv.raised {idOf h t} (hI : Inv idOf h t) (op e) : Inv idOf (h ++ [(op, .raised e)]) t := by
  have hb : handedOut (h ++ [(op, .raised e)]) = handedOut h := by
    rw [handedOut_append]; cases op <;> simp [handedBy]
  have ho := outstanding_append_raised h op e
  exact ⟨hI.entry, hI.idInj, hI.idLt, by rw [ho]; exact hI.out, by rw [hb]; exact hI.handed,
    by rw [hb]; exact hI.handedUniq, by rw [hb]; exact hI.ridsNodup, by rw [hb, ho]; exact hI.sub⟩

theorem Inv.delete {idOf h t} (hI : Inv idOf h t) (oid rid : Nat) :
    Inv idOf (h ++ [(.delete oid rid, (t.step idOf (.delete oid rid)).2)])
      (t.step idOf (.delete oid rid)).1 := by
  simp only [Refs.step, Refs.delete]
  cases hr : t.refs.get? oid with
  | none => exact hI.raised _ _
  | some p =>
    obtain ⟨o, s⟩ := p
    simp only
    have he := hI.entry _ _ _ hr
    by_cases hmem : rid ∈ s
    · rw [if_pos hmem]
      have hb : handedOut (h ++ [(.delete oid rid, .deleted)]) = handedOut h := by
        rw [handedOut_append]; simp [handedBy]
      have ho := outstanding_append_del h oid rid
      have hsub : ∀ x ∈ outstanding (h ++ [(.delete oid rid, .deleted)]),
          x ∈ handedOut (h ++ [(.delete oid rid, .deleted)]) := by
        rw [hb, ho]; intro x hx; exact hI.sub x (List.mem_filter.1 hx).1
      by_cases hl : (s.erase rid).length = 0
      · rw [if_pos hl]
        have hnil : s.erase rid = [] := List.length_eq_zero_iff.1 hl
        have honly : ∀ r ∈ s, r = rid := by
          intro r hrs
          by_cases hc : r = rid
          · exact hc
          · have := (List.mem_erase_of_ne hc).2 hrs
            rw [hnil] at this; simp at this
        have hg : ∀ k, ((t.refs.set oid (o, s.erase rid)).erase oid).get? k =
            if oid = k then none else t.refs.get? k := by
          intro k; rw [Dict.get?_erase, Dict.get?_set]; split <;> simp_all
        constructor
        · intro oid' o' s' hh
          simp only [hg] at hh
          split at hh
          · simp at hh
          · rename_i hne
            have he' := hI.entry _ _ _ hh
            refine ⟨he'.1, he'.2.1, ?_⟩
            simp only [Dict.get?_erase]
            rw [if_neg]
            · exact he'.2.2
            · intro hc
              rw [← hc] at he'
              rw [he.2.2] at he'
              simp at he'
              exact hne he'.2.2
        · intro a b n ha hb'
          simp only [Dict.get?_erase] at ha hb'
          split at ha <;> split at hb' <;> simp_all
          exact hI.idInj _ _ _ ha hb'
        · intro a n ha
          simp only [Dict.get?_erase] at ha
          split at ha
          · simp at ha
          · exact hI.idLt _ _ ha
        · intro x
          rw [ho, List.mem_filter, hI.out]
          simp only [hg]
          by_cases hx : oid = x.oid
          · subst hx
            simp only [hr, if_true]
            constructor
            · rintro ⟨⟨s', hs', hr'⟩, hne⟩
              simp only [Option.some.injEq, Prod.mk.injEq] at hs'
              obtain ⟨_, rfl⟩ := hs'
              have := honly _ hr'
              simp [this] at hne
            · rintro ⟨_, hc, _⟩; simp at hc
          · simp [hx, Ne.symm hx]
        · rw [hb]
          intro x hx
          have hh := hI.handed x hx
          refine ⟨hh.1, hh.2.1, ?_, ?_⟩
          · intro o' s'
            simp only [hg]
            split
            · simp
            · exact hh.2.2.1 _ _
          · simp only [hg]
            intro hn a ha
            simp only [Dict.get?_erase] at ha
            split at ha
            · simp at ha
            · rename_i hne
              split at hn
              · rename_i hox
                rw [← hox] at ha
                exact hne (hI.idInj _ _ _ he.2.2 ha)
              · exact hh.2.2.2 hn _ ha
        · rw [hb]; exact hI.handedUniq
        · rw [hb]; exact hI.ridsNodup
        · exact hsub
      · rw [if_neg hl]
        have hg : ∀ k, (t.refs.set oid (o, s.erase rid)).get? k =
            if oid = k then some (o, s.erase rid) else t.refs.get? k := by
          intro k; rw [Dict.get?_set]
        constructor
        · intro oid' o' s' hh
          simp only [hg] at hh
          split at hh
          · simp only [Option.some.injEq, Prod.mk.injEq] at hh
            obtain ⟨rfl, rfl⟩ := hh
            subst_vars
            refine ⟨?_, he.2.1.erase _, he.2.2⟩
            intro hc; simp [hc] at hl
          · exact hI.entry _ _ _ hh
        · exact hI.idInj
        · exact hI.idLt
        · intro x
          rw [ho, List.mem_filter, hI.out]
          simp only [hg]
          by_cases hx : oid = x.oid
          · subst hx
            simp only [hr, if_true]
            constructor
            · rintro ⟨⟨s', hs', hr'⟩, hne⟩
              simp only [Option.some.injEq, Prod.mk.injEq] at hs'
              obtain ⟨rfl, rfl⟩ := hs'
              refine ⟨_, rfl, ?_⟩
              simp at hne
              exact (List.mem_erase_of_ne hne).2 hr'
            · rintro ⟨s', hs', hr'⟩
              simp only [Option.some.injEq, Prod.mk.injEq] at hs'
              obtain ⟨rfl, rfl⟩ := hs'
              have := (he.2.1.mem_erase_iff).1 hr'
              exact ⟨⟨s, rfl, this.2⟩, by simp [this.1]⟩
          · simp [hx, Ne.symm hx]
        · rw [hb]
          intro x hx
          have hh := hI.handed x hx
          refine ⟨hh.1, hh.2.1, ?_, ?_⟩
          · intro o' s'
            simp only [hg]
            split
            · intro h'
              simp only [Option.some.injEq, Prod.mk.injEq] at h'
              rw [← h'.1]; subst_vars; exact hh.2.2.1 _ _ hr
            · exact hh.2.2.1 _ _
          · simp only [hg]
            intro hn
            split at hn
            · simp at hn
            · exact hh.2.2.2 hn
        · rw [hb]; exact hI.handedUniq
        · rw [hb]; exact hI.ridsNodup
        · exact hsub
    · rw [if_neg hmem]
      exact hI.raised _ _

theorem Reach.inv {idOf h t} (hr : Reach idOf h t) : Inv idOf h t := by
  induction hr with
  | init => exact Inv.init idOf
  | step op _ hd ih =>
    cases op with
    | get o k => exact ih.get o k hd
    | delete a b => exact ih.delete a b

/-- keys of both dictionaries stay unique -/
theorem Reach.wf {idOf h t} (hr : Reach idOf h t) : t.refs.WF := by
  induction hr with
  | init => simp [Refs.init, Dict.WF]
  | step op _ _ ih =>
    cases op with
    | get o k =>
      rename_i t _ _
      simp only [Refs.step, Refs.getProxy, Refs.getObjectId]
      cases t.idMap.get? (idOf o) <;> (simp only; by_cases hk : k.all (· ∈ optionNames) = true) <;>
        simp only [hk, if_true] <;> first | exact Dict.wf_set ih _ _ | exact ih | skip
    | delete a b =>
      simp only [Refs.step, Refs.delete]
      repeat' split
      all_goals simp_all
      all_goals (rename_i hc; repeat' split at hc)
      all_goals simp_all
      all_goals (obtain rfl := hc; first | exact Dict.wf_set ih _ _ | exact Dict.wf_erase (Dict.wf_set ih _ _) _ | exact ih)

end Verif
